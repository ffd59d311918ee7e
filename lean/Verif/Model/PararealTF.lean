import Verif.Model.CLQTTF

/-!
Model of `/repo/parallel_control/parareal_clqt_tf.py`.

Simplifications: those of `Verif.Model.CLQTTF`; the tensors given to one function have the same first dimension; the division of
the horizon by zero blocks or steps, which does not raise, is outside the model.
-/

namespace Verif

open Matrix

variable {n m : ℕ} {K : Type} [Field K]

/-- `tf.range(0, blocks) * steps * dt`, `parareal_clqt_tf.py:61` (also 139, 256, 335, 460 and 549). -/
def tfPrTimes (blocks steps : ℕ) (dt : K) : List K := (List.range blocks).map fun k : ℕ => (k : K) * steps * dt

/-- `tf.range(0, blocks) * dt`, `parareal_clqt_tf.py:106` (also 303 and 514). -/
def tfPrCoarseTimes (blocks : ℕ) (dt : K) : List K := (List.range blocks).map fun k : ℕ => (k : K) * dt

section Ordered
variable [LinearOrder K]

/-! ### Backward pass -/

/-- `pclqt_init_backwardpass`, `parareal_clqt_tf.py:24-41`. -/
def CLQT.tfPrInitBackward (P : CLQT n m K) (blocks : ℕ) : Py (List (Matrix (Fin n) (Fin n) K) × List (Fin n → K)) := do
  let (dt, t0, ST, vT) := P.tfSeqDefaults blocks
  let r ← P.tfSeqBackward blocks dt t0 ST vT
  return (r.S_list, r.v_list)

/-- `pclqt_dense_backwardpass`, `parareal_clqt_tf.py:44-70`. -/
def CLQT.tfPrDenseBackward (P : CLQT n m K) (steps : ℕ) (Ss_curr : List (Matrix (Fin n) (Fin n) K)) (vs_curr : List (Fin n → K)) :
    Py (List (Matrix (Fin n) (Fin n) K) × List (Fin n → K)) := do
  let blocks := Ss_curr.length - 1
  let dt := P.T / ((blocks * steps : ℕ) : K)
  let rs ← ((tfPrTimes blocks steps dt).zip (Ss_curr.tail.zip vs_curr.tail)).mapM fun a =>
    P.tfSeqBackward steps dt a.1 a.2.1 a.2.2
  let Ss_F ← rs.mapM fun r => pyGet r.S_list 0
  let vs_F ← rs.mapM fun r => pyGet r.v_list 0
  return (Ss_F ++ [← pyLast Ss_curr], vs_F ++ [← pyLast vs_curr])

/-- `body` of `pclqt_coarse_backwardpass`, `parareal_clqt_tf.py:93-104`; the carry is `((S, v), (S_G_new, v_G_new))`. -/
def CLQT.tfPrCoarseBwBody (P : CLQT n m K) (dt : K)
    (carry : (Matrix (Fin n) (Fin n) K × (Fin n → K)) × (Matrix (Fin n) (Fin n) K × (Fin n → K)))
    (inputs : K × (Matrix (Fin n) (Fin n) K × (Fin n → K)) × (Matrix (Fin n) (Fin n) K × (Fin n → K))) :
    Py ((Matrix (Fin n) (Fin n) K × (Fin n → K)) × (Matrix (Fin n) (Fin n) K × (Fin n → K))) := do
  let (t, (S_F, v_F), (S_G, v_G)) := inputs
  let r ← P.tfSeqBackward 1 dt t carry.1.1 carry.1.2
  let S_G_new ← pyGet r.S_list 0
  let v_G_new ← pyGet r.v_list 0
  let S := S_G_new + S_F - S_G
  let v := v_G_new + v_F - v_G
  return ((S, v), (S_G_new, v_G_new))

/-- `pclqt_coarse_backwardpass`, `parareal_clqt_tf.py:73-117`; returns `(Ss, vs)` and `(Ss_G_new, vs_G_new)`. -/
def CLQT.tfPrCoarseBackward (P : CLQT n m K) (FF GG : List (Matrix (Fin n) (Fin n) K) × List (Fin n → K)) :
    Py ((List (Matrix (Fin n) (Fin n) K) × List (Fin n → K)) × (List (Matrix (Fin n) (Fin n) K) × List (Fin n → K))) := do
  let blocks := FF.1.length - 1
  let dt := P.T / (blocks : K)
  let ts := tfPrCoarseTimes blocks dt
  let ST ← pyLast FF.1
  let vT ← pyLast FF.2
  let r ← tfScanRev (P.tfPrCoarseBwBody dt) ((ST, vT), (ST, vT))
    (ts.zip ((FF.1.dropLast.zip FF.2.dropLast).zip (GG.1.dropLast.zip GG.2.dropLast)))
  return ((r.1.map (fun a => a.1.1) ++ [ST], r.1.map (fun a => a.1.2) ++ [vT]),
    (r.1.map (fun a => a.2.1) ++ [ST], r.1.map (fun a => a.2.2) ++ [vT]))

/-- `pclqt_final_backwardpass`, `parareal_clqt_tf.py:120-160`. -/
def CLQT.tfPrFinalBackward (P : CLQT n m K) (steps : ℕ) (Ss_curr : List (Matrix (Fin n) (Fin n) K)) (vs_curr : List (Fin n → K)) :
    Py (BwResult n m K) := do
  let blocks := Ss_curr.length - 1
  let dt := P.T / (blocks : K) / (steps : K)
  let rs ← ((tfPrTimes blocks steps dt).zip (Ss_curr.tail.zip vs_curr.tail)).mapM fun a =>
    P.tfSeqBackward steps dt a.1 a.2.1 a.2.2
  let ST ← pyLast Ss_curr
  let vT ← pyLast vs_curr
  return ⟨(rs.map fun r => r.Kx_list).flatten, (rs.map fun r => r.d_list).flatten,
    (rs.map fun r => r.S_list.dropLast).flatten ++ [ST], (rs.map fun r => r.v_list.dropLast).flatten ++ [vT]⟩

/-- `body` of `pclqt_backwardpass`, `parareal_clqt_tf.py:182-189`; the carry is `((Ss_curr, vs_curr), (Ss_G, vs_G))`. -/
def CLQT.tfPrBwBody (P : CLQT n m K) (steps : ℕ)
    (st : (List (Matrix (Fin n) (Fin n) K) × List (Fin n → K)) × (List (Matrix (Fin n) (Fin n) K) × List (Fin n → K))) :
    Py ((List (Matrix (Fin n) (Fin n) K) × List (Fin n → K)) × (List (Matrix (Fin n) (Fin n) K) × List (Fin n → K))) := do
  let FF ← P.tfPrDenseBackward steps st.1.1 st.1.2
  P.tfPrCoarseBackward FF st.2

/-- `pclqt_backwardpass`, `parareal_clqt_tf.py:163-202`; without iterations `Ss_curr_all[-1]` fails. -/
def CLQT.tfPrBackward (P : CLQT n m K) (blocks steps niter : ℕ) : Py (BwResult n m K) := do
  let cur ← P.tfPrInitBackward blocks
  let all ← tfScanFwdM (fun st (_ : ℕ) => P.tfPrBwBody steps st) (cur, cur) (List.range niter)
  let st ← pyLast all
  P.tfPrFinalBackward steps st.1.1 st.1.2

/-! ### Forward pass -/

/-- `pclqt_init_forwardpass`, `parareal_clqt_tf.py:209-235`. -/
def CLQT.tfPrInitForward (P : CLQT n m K) (blocks steps : ℕ) (x0 : Fin n → K) (Kxs : List (Matrix (Fin m) (Fin n) K))
    (ds : List (Fin m → K)) (u_zoh : Bool) : Py (List (Fin n → K)) := do
  let dt := P.T / (blocks : K)
  let Kxs ← tfReshape blocks steps Kxs
  let ds ← tfReshape blocks steps ds
  let Kxs ← Kxs.mapM fun l => pyGet l 0
  let ds ← ds.mapM fun l => pyGet l 0
  let r ← P.tfSeqForward x0 Kxs ds dt 0 u_zoh
  return r.1

/-- `pclqt_dense_forwardpass`, `parareal_clqt_tf.py:238-267`. -/
def CLQT.tfPrDenseForward (P : CLQT n m K) (steps : ℕ) (xs_curr : List (Fin n → K)) (Kxs : List (Matrix (Fin m) (Fin n) K))
    (ds : List (Fin m → K)) (u_zoh : Bool) : Py (List (Fin n → K)) := do
  let blocks := xs_curr.length - 1
  let dt := P.T / ((blocks * steps : ℕ) : K)
  let Kxs ← tfReshape blocks steps Kxs
  let ds ← tfReshape blocks steps ds
  let rs ← ((tfPrTimes blocks steps dt).zip (xs_curr.dropLast.zip (Kxs.zip ds))).mapM fun a =>
    P.tfSeqForward a.2.1 a.2.2.1 a.2.2.2 dt a.1 u_zoh
  let xs_F ← rs.mapM fun r => pyLast r.1
  return (← pyGet xs_curr 0) :: xs_F

/-- `body` of `pclqt_coarse_forwardpass`, `parareal_clqt_tf.py:290-301`; the carry is `(x, x_G_new)`. -/
def CLQT.tfPrCoarseFwBody (P : CLQT n m K) (u_zoh : Bool) (dt : K) (carry : (Fin n → K) × (Fin n → K))
    (inputs : K × ((Fin n → K) × (Fin n → K)) × (Matrix (Fin m) (Fin n) K × (Fin m → K))) : Py ((Fin n → K) × (Fin n → K)) := do
  let (t, (x_F, x_G), (Kx, d)) := inputs
  let r ← P.tfSeqForward carry.1 [Kx] [d] dt t u_zoh
  let x_G_new ← pyLast r.1
  let x := x_G_new + x_F - x_G
  return (x, x_G_new)

/-- `Kxs[::steps]`, `parareal_clqt_tf.py:305`; a zero step raises `ValueError`. -/
def tfStride {β : Type} (l : List β) (step : ℕ) : Py (List β) :=
  if step = 0 then .error .valueError
  else (List.range ((l.length + step - 1) / step)).mapM fun i => pyGet l (i * step)

/-- `pclqt_coarse_forwardpass`, `parareal_clqt_tf.py:270-312`; returns `(xs, xs_G_new)`. -/
def CLQT.tfPrCoarseForward (P : CLQT n m K) (steps : ℕ) (xs_F xs_G : List (Fin n → K)) (Kxs : List (Matrix (Fin m) (Fin n) K))
    (ds : List (Fin m → K)) (u_zoh : Bool) : Py (List (Fin n → K) × List (Fin n → K)) := do
  let blocks := xs_F.length - 1
  let dt := P.T / (blocks : K)
  let ts := tfPrCoarseTimes blocks dt
  let Kxs ← tfStride Kxs steps
  let ds ← tfStride ds steps
  let x0 ← pyGet xs_F 0
  let r ← tfScanFwdM (P.tfPrCoarseFwBody u_zoh dt) (x0, x0) (ts.zip ((xs_F.tail.zip xs_G.tail).zip (Kxs.zip ds)))
  return (x0 :: r.map Prod.fst, x0 :: r.map Prod.snd)

/-- `pclqt_final_forwardpass`, `parareal_clqt_tf.py:315-353`; returns `(xs, us)`. -/
def CLQT.tfPrFinalForward (P : CLQT n m K) (steps : ℕ) (xs_curr : List (Fin n → K)) (Kxs : List (Matrix (Fin m) (Fin n) K))
    (ds : List (Fin m → K)) (u_zoh : Bool) : Py (List (Fin n → K) × List (Fin m → K)) := do
  let blocks := xs_curr.length - 1
  let dt := P.T / ((blocks * steps : ℕ) : K)
  let Kxs ← tfReshape blocks steps Kxs
  let ds ← tfReshape blocks steps ds
  let rs ← ((tfPrTimes blocks steps dt).zip (xs_curr.dropLast.zip (Kxs.zip ds))).mapM fun a =>
    P.tfSeqForward a.2.1 a.2.2.1 a.2.2.2 dt a.1 u_zoh
  let r ← pyLast rs
  let xT ← pyLast r.1
  return ((rs.map fun r => r.1.dropLast).flatten ++ [xT], (rs.map fun r => r.2).flatten)

/-- `body` of `pclqt_forwardpass`, `parareal_clqt_tf.py:375-382`; the carry is `(xs_curr, xs_G)`. -/
def CLQT.tfPrFwBody (P : CLQT n m K) (steps : ℕ) (Kxs : List (Matrix (Fin m) (Fin n) K)) (ds : List (Fin m → K)) (u_zoh : Bool)
    (st : List (Fin n → K) × List (Fin n → K)) : Py (List (Fin n → K) × List (Fin n → K)) := do
  let xs_F ← P.tfPrDenseForward steps st.1 Kxs ds u_zoh
  P.tfPrCoarseForward steps xs_F st.2 Kxs ds u_zoh

/-- `pclqt_forwardpass`, `parareal_clqt_tf.py:356-394`; returns `(xs, us)`. -/
def CLQT.tfPrForward (P : CLQT n m K) (blocks steps niter : ℕ) (x0 : Fin n → K) (Kxs : List (Matrix (Fin m) (Fin n) K))
    (ds : List (Fin m → K)) (u_zoh : Bool := false) : Py (List (Fin n → K) × List (Fin m → K)) := do
  let cur ← P.tfPrInitForward blocks steps x0 Kxs ds u_zoh
  let all ← tfScanFwdM (fun st (_ : ℕ) => P.tfPrFwBody steps Kxs ds u_zoh st) (cur, cur) (List.range niter)
  let st ← pyLast all
  P.tfPrFinalForward steps st.1 Kxs ds u_zoh

/-- `pclqt_backwardforwardpass`, `parareal_clqt_tf.py:397-415`; returns `(xs, us)`. -/
def CLQT.tfPrBackwardForward (P : CLQT n m K) (blocks steps niter : ℕ) (x0 : Fin n → K) :
    Py (List (Fin n → K) × List (Fin m → K)) := do
  let r ← P.tfPrBackward blocks steps niter
  P.tfPrForward blocks steps niter x0 r.Kx_list r.d_list

/-! ### Forward-backward pass -/

/-- `pclqt_init_fwdbwdpass`, `parareal_clqt_tf.py:422-438`. -/
def CLQT.tfPrInitFwdBwd (P : CLQT n m K) (blocks : ℕ) (x0 : Fin n → K) : Py (AbcResult n K) :=
  P.tfSeqFwdBwd blocks (P.T / (blocks : K)) 0 0 x0 0

/-- `pclqt_dense_fwdbwdpass`, `parareal_clqt_tf.py:441-472`. -/
def CLQT.tfPrDenseFwdBwd (P : CLQT n m K) (steps : ℕ) (cur : AbcResult n K) : Py (AbcResult n K) := do
  let blocks := cur.A_list.length - 1
  let dt := P.T / ((blocks * steps : ℕ) : K)
  let rs ← ((tfPrTimes blocks steps dt).zip (cur.A_list.dropLast.zip (cur.b_list.dropLast.zip cur.C_list.dropLast))).mapM fun a =>
    P.tfSeqFwdBwd steps dt a.1 a.2.1 a.2.2.1 a.2.2.2
  let As_F ← rs.mapM fun r => pyLast r.A_list
  let bs_F ← rs.mapM fun r => pyLast r.b_list
  let Cs_F ← rs.mapM fun r => pyLast r.C_list
  return ⟨(← pyGet cur.A_list 0) :: As_F, (← pyGet cur.b_list 0) :: bs_F, (← pyGet cur.C_list 0) :: Cs_F⟩

/-- `body` of `pclqt_coarse_fwdbwdpass`, `parareal_clqt_tf.py:499-512`; the carry is `((A, b, C), (A_G_new, b_G_new,
C_G_new))`. -/
def CLQT.tfPrCoarseAbcBody (P : CLQT n m K) (dt : K)
    (carry : (Matrix (Fin n) (Fin n) K × (Fin n → K) × Matrix (Fin n) (Fin n) K) ×
      (Matrix (Fin n) (Fin n) K × (Fin n → K) × Matrix (Fin n) (Fin n) K))
    (inputs : K × (Matrix (Fin n) (Fin n) K × (Fin n → K) × Matrix (Fin n) (Fin n) K) ×
      (Matrix (Fin n) (Fin n) K × (Fin n → K) × Matrix (Fin n) (Fin n) K)) :
    Py ((Matrix (Fin n) (Fin n) K × (Fin n → K) × Matrix (Fin n) (Fin n) K) ×
      (Matrix (Fin n) (Fin n) K × (Fin n → K) × Matrix (Fin n) (Fin n) K)) := do
  let (t, (A_F, b_F, C_F), (A_G, b_G, C_G)) := inputs
  let r ← P.tfSeqFwdBwd 1 dt t carry.1.1 carry.1.2.1 carry.1.2.2
  let A_G_new ← pyLast r.A_list
  let b_G_new ← pyLast r.b_list
  let C_G_new ← pyLast r.C_list
  let A := A_G_new + A_F - A_G
  let b := b_G_new + b_F - b_G
  let C := C_G_new + C_F - C_G
  return ((A, b, C), (A_G_new, b_G_new, C_G_new))

/-- `pclqt_coarse_fwdbwdpass`, `parareal_clqt_tf.py:475-527`; returns the current and the new coarse tensors. -/
def CLQT.tfPrCoarseFwdBwd (P : CLQT n m K) (FF GG : AbcResult n K) : Py (AbcResult n K × AbcResult n K) := do
  let blocks := FF.A_list.length - 1
  let dt := P.T / (blocks : K)
  let ts := tfPrCoarseTimes blocks dt
  let A0 ← pyGet FF.A_list 0
  let b0 ← pyGet FF.b_list 0
  let C0 ← pyGet FF.C_list 0
  let r ← tfScanFwdM (P.tfPrCoarseAbcBody dt) ((A0, b0, C0), (A0, b0, C0))
    (ts.zip ((FF.A_list.tail.zip (FF.b_list.tail.zip FF.C_list.tail)).zip
      (GG.A_list.tail.zip (GG.b_list.tail.zip GG.C_list.tail))))
  return (⟨A0 :: r.map (fun a => a.1.1), b0 :: r.map (fun a => a.1.2.1), C0 :: r.map (fun a => a.1.2.2)⟩,
    ⟨A0 :: r.map (fun a => a.2.1), b0 :: r.map (fun a => a.2.2.1), C0 :: r.map (fun a => a.2.2.2)⟩)

/-- `pclqt_final_fwdbwdpass`, `parareal_clqt_tf.py:530-571`. -/
def CLQT.tfPrFinalFwdBwd (P : CLQT n m K) (steps : ℕ) (cur : AbcResult n K) : Py (AbcResult n K) := do
  let blocks := cur.A_list.length - 1
  let dt := P.T / (blocks : K) / (steps : K)
  let rs ← ((tfPrTimes blocks steps dt).zip (cur.A_list.dropLast.zip (cur.b_list.dropLast.zip cur.C_list.dropLast))).mapM fun a =>
    P.tfSeqFwdBwd steps dt a.1 a.2.1 a.2.2.1 a.2.2.2
  let r ← pyLast rs
  let AT ← pyLast r.A_list
  let bT ← pyLast r.b_list
  let CT ← pyLast r.C_list
  return ⟨(rs.map fun r => r.A_list.dropLast).flatten ++ [AT], (rs.map fun r => r.b_list.dropLast).flatten ++ [bT],
    (rs.map fun r => r.C_list.dropLast).flatten ++ [CT]⟩

/-- `body` of `pclqt_fwdbwdpass`, `parareal_clqt_tf.py:590-597`. -/
def CLQT.tfPrAbcBody (P : CLQT n m K) (steps : ℕ) (st : AbcResult n K × AbcResult n K) : Py (AbcResult n K × AbcResult n K) := do
  let FF ← P.tfPrDenseFwdBwd steps st.1
  P.tfPrCoarseFwdBwd FF st.2

/-- `pclqt_fwdbwdpass`, `parareal_clqt_tf.py:574-612`. -/
def CLQT.tfPrFwdBwd (P : CLQT n m K) (blocks steps niter : ℕ) (x0 : Fin n → K) : Py (AbcResult n K) := do
  let cur ← P.tfPrInitFwdBwd blocks x0
  let all ← tfScanFwdM (fun st (_ : ℕ) => P.tfPrAbcBody steps st) (cur, cur) (List.range niter)
  let st ← pyLast all
  P.tfPrFinalFwdBwd steps st.1

/-- `pclqt_backwardbwdfwdpass`, `parareal_clqt_tf.py:615-636`; returns `(xs, us)`. -/
def CLQT.tfPrBackwardBwdFwd (P : CLQT n m K) (blocks steps niter : ℕ) (x0 : Fin n → K) :
    Py (List (Fin n → K) × List (Fin m → K)) := do
  let bw ← P.tfPrBackward blocks steps niter
  let fw ← P.tfPrFwdBwd blocks steps niter x0
  clqtTfCombine bw fw

end Ordered

end Verif
