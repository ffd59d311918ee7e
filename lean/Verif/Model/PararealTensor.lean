import Verif.Model.CLQTTensor

/-!
Model of `/repo/parallel_control/parareal_clqt_tf.py` operation by operation on tensors.  The functional model of the same file is
`Verif.Model.PararealTF`.

Simplifications: those of `Verif.Model.CLQTTensor`; the division of the horizon by zero blocks or steps, which does not raise, is outside
the model; `blocks`, `steps` and `niter` are natural numbers.
-/

namespace Verif

variable {K : Type}

/-- `t[:, -1]`, `parareal_clqt_tf.py:264,464-466`. -/
def Tens.last1 (t : Tens K) : Py (Tens K) := do
  match ← t.size 1 with
  | 0 => throw .indexError
  | k + 1 => t.select 1 k

/-- `t[::steps]`, `parareal_clqt_tf.py:305`; a zero step raises. -/
def Tens.stride0 (t : Tens K) (step : ℕ) : Py (Tens K) :=
  if step = 0 then .error .valueError
  else match t.shape with
  | [] => .error .valueError
  | k :: s => .ok ⟨(k + step - 1) / step :: s, fun i => t.val (i.getD 0 0 * step :: i.tail)⟩

/-- `tf.concat([t, tf.expand_dims(x, axis=0)], axis=0)`, `parareal_clqt_tf.py:67-68,112-115,157-158,348,567-569`. -/
def Tens.pushItem (t x : Tens K) : Py (Tens K) := do t.concat (← x.expandDims 0) 0

/-- `tf.concat([tf.expand_dims(x, axis=0), t], axis=0)`, `parareal_clqt_tf.py:265,309-310,468-470,520-525`. -/
def Tens.consItem (x t : Tens K) : Py (Tens K) := do (← x.expandDims 0).concat t 0

section Field
variable [Field K]

/-- `S_G_new + S_F - S_G`, `parareal_clqt_tf.py:101-102,299,508-510`. -/
def Tens.correct (new fine coarse : Tens K) : Py (Tens K) := do (← new.bin (· + ·) fine).bin (· - ·) coarse

/-- `tf.range(0, blocks) * steps * dt`, `parareal_clqt_tf.py:61,139,256,335,460,549`. -/
def tensPrTimes (blocks steps : ℕ) (dt : K) : List K := (List.range blocks).map fun k : ℕ => (k : K) * (steps : K) * dt

section Ordered
variable [LinearOrder K] (p : TensCLQT K)

/-! ### Backward pass -/

/-- `pclqt_init_backwardpass`, `parareal_clqt_tf.py:24-41`; returns `(Ss, vs)`. -/
def tensPrInitBackward (d : TensFinal K) (blocks : ℕ) : Py (Tens K × Tens K) := do
  let (dt, t0, ST, vT) ← tensClqtSeqDefaults d blocks
  let r ← tensClqtBwPass p blocks dt t0 ST vT
  return (r.Ss, r.vs)

/-- `pclqt_dense_backwardpass`, `parareal_clqt_tf.py:44-70`; returns `(Ss_F, vs_F)`. -/
def tensPrDenseBackward (steps : ℕ) (T : K) (Ss_curr vs_curr : Tens K) : Py (Tens K × Tens K) := do
  let blocks := (← Ss_curr.size 0) - 1
  let dt := T / ((blocks * steps : ℕ) : K)
  let t0 := tensPrTimes blocks steps dt
  let r ← tensClqtBwBatch p steps dt t0 (← Ss_curr.tail) (← vs_curr.tail)
  let Ss_F ← r.Ss.select 1 0
  let vs_F ← r.vs.select 1 0
  let Ss_F ← Ss_F.pushItem (← Ss_curr.last)
  let vs_F ← vs_F.pushItem (← vs_curr.last)
  return (Ss_F, vs_F)

/-- `body` of `pclqt_coarse_backwardpass`, `parareal_clqt_tf.py:93-104`; the carry is `((S, v), (S_G_new, v_G_new))`. -/
def tensPrCoarseBwBody (dt : K) (carry : (Tens K × Tens K) × (Tens K × Tens K))
    (inputs : K × (Tens K × Tens K) × (Tens K × Tens K)) : Py ((Tens K × Tens K) × (Tens K × Tens K)) := do
  let (t, (S_F, v_F), (S_G, v_G)) := inputs
  let r ← tensClqtBwPass p 1 dt t carry.1.1 carry.1.2
  let S_G_new ← r.Ss.select 0 0
  let v_G_new ← r.vs.select 0 0
  let S ← S_G_new.correct S_F S_G
  let v ← v_G_new.correct v_F v_G
  return ((S, v), (S_G_new, v_G_new))

/-- `pclqt_coarse_backwardpass`, `parareal_clqt_tf.py:73-117`; returns `(Ss, vs)` and `(Ss_G_new, vs_G_new)`.  The first axes must fit. -/
def tensPrCoarseBackward (T : K) (FF GG : Tens K × Tens K) : Py ((Tens K × Tens K) × (Tens K × Tens K)) := do
  let blocks := (← FF.1.size 0) - 1
  let dt := T / (blocks : K)
  let ts := (List.range blocks).map fun k : ℕ => (k : K) * dt
  let ST ← FF.1.last
  let vT ← FF.2.last
  let SF ← (← FF.1.init).items
  let vF ← (← FF.2.init).items
  let SG ← (← GG.1.init).items
  let vG ← (← GG.2.init).items
  if SF.length ≠ blocks ∨ vF.length ≠ blocks ∨ SG.length ≠ blocks ∨ vG.length ≠ blocks then throw .valueError
  let r ← tfScanRev (tensPrCoarseBwBody p dt) ((ST, vT), (ST, vT)) (ts.zip ((SF.zip vF).zip (SG.zip vG)))
  let Ss ← Tens.stack ST.shape ST.val (r.1.map fun a => a.1.1)
  let vs ← Tens.stack vT.shape vT.val (r.1.map fun a => a.1.2)
  let Ss_G_new ← Tens.stack ST.shape ST.val (r.1.map fun a => a.2.1)
  let vs_G_new ← Tens.stack vT.shape vT.val (r.1.map fun a => a.2.2)
  let Ss ← Ss.pushItem ST
  let vs ← vs.pushItem vT
  let Ss_G_new ← Ss_G_new.pushItem ST
  let vs_G_new ← vs_G_new.pushItem vT
  return ((Ss, vs), (Ss_G_new, vs_G_new))

/-- `pclqt_final_backwardpass`, `parareal_clqt_tf.py:120-160`. -/
def tensPrFinalBackward (steps : ℕ) (T : K) (Ss_curr vs_curr : Tens K) : Py (TensBw K) := do
  let blocks := (← Ss_curr.size 0) - 1
  let dt := T / (blocks : K) / (steps : K)
  let t0 := tensPrTimes blocks steps dt
  let r ← tensClqtBwBatch p steps dt t0 (← Ss_curr.tail) (← vs_curr.tail)
  let Ss ← r.Ss.init1
  let vs ← r.vs.init1
  let Ss ← Ss.mergeAxes
  let vs ← vs.mergeAxes
  let Kxs ← r.Kxs.mergeAxes
  let ds ← r.ds.mergeAxes
  let ST ← Ss_curr.last
  let vT ← vs_curr.last
  let Ss ← Ss.pushItem ST
  let vs ← vs.pushItem vT
  return ⟨Ss, vs, Kxs, ds⟩

/-- `body` of `pclqt_backwardpass`, `parareal_clqt_tf.py:182-189`; the carry is `((Ss_curr, vs_curr), (Ss_G, vs_G))`. -/
def tensPrBwBody (steps : ℕ) (T : K) (carry : (Tens K × Tens K) × (Tens K × Tens K)) : Py ((Tens K × Tens K) × (Tens K × Tens K)) := do
  let FF ← tensPrDenseBackward p steps T carry.1.1 carry.1.2
  tensPrCoarseBackward p T FF carry.2

/-- `pclqt_backwardpass`, `parareal_clqt_tf.py:163-202`. -/
def tensPrBackward (d : TensFinal K) (blocks steps niter : ℕ) : Py (TensBw K) := do
  let (Ss_curr, vs_curr) ← tensPrInitBackward p d blocks
  let all ← tfScanFwdM (fun c (_ : ℕ) => tensPrBwBody p steps d.T c) ((Ss_curr, vs_curr), (Ss_curr, vs_curr)) (List.range niter)
  let Ss_curr_all ← Tens.stack Ss_curr.shape Ss_curr.val (all.map fun a => a.1.1)
  let vs_curr_all ← Tens.stack vs_curr.shape vs_curr.val (all.map fun a => a.1.2)
  let _ ← Tens.stack Ss_curr.shape Ss_curr.val (all.map fun a => a.2.1)
  let _ ← Tens.stack vs_curr.shape vs_curr.val (all.map fun a => a.2.2)
  tensPrFinalBackward p steps d.T (← Ss_curr_all.last) (← vs_curr_all.last)

/-! ### Forward pass -/

omit [LinearOrder K] in
/-- `pclqt_init_forwardpass`, `parareal_clqt_tf.py:209-235`. -/
def tensPrInitForward (u_zoh : Bool) (blocks steps : ℕ) (T : K) (x0 Kxs ds : Tens K) : Py (Tens K) := do
  let dt := T / (blocks : K)
  let Kxs ← Kxs.splitM blocks steps
  let ds ← ds.splitV blocks steps
  let r ← tensClqtSeqForward p u_zoh x0 (← Kxs.select 1 0) (← ds.select 1 0) dt 0
  return r.1

omit [LinearOrder K] in
/-- `pclqt_dense_forwardpass`, `parareal_clqt_tf.py:238-267`. -/
def tensPrDenseForward (u_zoh : Bool) (steps : ℕ) (T : K) (xs_curr Kxs ds : Tens K) : Py (Tens K) := do
  let blocks := (← xs_curr.size 0) - 1
  let dt := T / ((blocks * steps : ℕ) : K)
  let t0 := tensPrTimes blocks steps dt
  let Kxs ← Kxs.splitM blocks steps
  let ds ← ds.splitV blocks steps
  let r ← tensClqtFwBatch p u_zoh (← xs_curr.init) Kxs ds dt t0
  let xs_F ← r.1.last1
  (← xs_curr.select 0 0).consItem xs_F

omit [LinearOrder K] in
/-- `body` of `pclqt_coarse_forwardpass`, `parareal_clqt_tf.py:290-301`; the carry is `(x, x_G_new)`. -/
def tensPrCoarseFwBody (u_zoh : Bool) (dt : K) (carry : Tens K × Tens K)
    (inputs : K × (Tens K × Tens K) × (Tens K × Tens K)) : Py (Tens K × Tens K) := do
  let (t, (x_F, x_G), (Kx, d)) := inputs
  let Kx ← Kx.expandDims 0
  let d ← d.expandDims 0
  let r ← tensClqtSeqForward p u_zoh carry.1 Kx d dt t
  let x_G_new ← r.1.last
  let x ← x_G_new.correct x_F x_G
  return (x, x_G_new)

omit [LinearOrder K] in
/-- `pclqt_coarse_forwardpass`, `parareal_clqt_tf.py:270-312`; returns `(xs, xs_G_new)`.  The first axes must fit. -/
def tensPrCoarseForward (u_zoh : Bool) (steps : ℕ) (T : K) (xs_F xs_G Kxs ds : Tens K) : Py (Tens K × Tens K) := do
  let blocks := (← xs_F.size 0) - 1
  let dt := T / (blocks : K)
  let ts := (List.range blocks).map fun k : ℕ => (k : K) * dt
  let xF ← (← xs_F.tail).items
  let xG ← (← xs_G.tail).items
  let Kx ← (← Kxs.stride0 steps).items
  let d ← (← ds.stride0 steps).items
  if xF.length ≠ blocks ∨ xG.length ≠ blocks ∨ Kx.length ≠ blocks ∨ d.length ≠ blocks then throw .valueError
  let x0 ← xs_F.select 0 0
  let r ← tfScanFwdM (tensPrCoarseFwBody p u_zoh dt) (x0, x0) (ts.zip ((xF.zip xG).zip (Kx.zip d)))
  let xs ← Tens.stack x0.shape x0.val (r.map Prod.fst)
  let xs_G_new ← Tens.stack x0.shape x0.val (r.map Prod.snd)
  let xs ← x0.consItem xs
  let xs_G_new ← x0.consItem xs_G_new
  return (xs, xs_G_new)

omit [LinearOrder K] in
/-- `pclqt_final_forwardpass`, `parareal_clqt_tf.py:315-353`; returns `(xs, us)`. -/
def tensPrFinalForward (u_zoh : Bool) (steps : ℕ) (T : K) (xs_curr Kxs ds : Tens K) : Py (Tens K × Tens K) := do
  let blocks := (← xs_curr.size 0) - 1
  let dt := T / ((blocks * steps : ℕ) : K)
  let t0 := tensPrTimes blocks steps dt
  let Kxs ← Kxs.splitM blocks steps
  let ds ← ds.splitV blocks steps
  let (xs, us) ← tensClqtFwBatch p u_zoh (← xs_curr.init) Kxs ds dt t0
  let xT ← (← xs.last).last
  let xs ← xs.init1
  let xs ← xs.mergeAxes
  let xs ← xs.pushItem xT
  let us ← us.mergeAxes
  return (xs, us)

omit [LinearOrder K] in
/-- `body` of `pclqt_forwardpass`, `parareal_clqt_tf.py:375-382`; the carry is `(xs_curr, xs_G)`. -/
def tensPrFwBody (u_zoh : Bool) (steps : ℕ) (T : K) (Kxs ds : Tens K) (carry : Tens K × Tens K) : Py (Tens K × Tens K) := do
  let xs_F ← tensPrDenseForward p u_zoh steps T carry.1 Kxs ds
  tensPrCoarseForward p u_zoh steps T xs_F carry.2 Kxs ds

omit [LinearOrder K] in
/-- `pclqt_forwardpass`, `parareal_clqt_tf.py:356-394`; returns `(xs, us)`. -/
def tensPrForward (blocks steps niter : ℕ) (x0 : Tens K) (T : K) (Kxs ds : Tens K) (u_zoh : Bool := false) : Py (Tens K × Tens K) := do
  let xs_curr ← tensPrInitForward p u_zoh blocks steps T x0 Kxs ds
  let all ← tfScanFwdM (fun c (_ : ℕ) => tensPrFwBody p u_zoh steps T Kxs ds c) (xs_curr, xs_curr) (List.range niter)
  let xs_curr_all ← Tens.stack xs_curr.shape xs_curr.val (all.map Prod.fst)
  let _ ← Tens.stack xs_curr.shape xs_curr.val (all.map Prod.snd)
  tensPrFinalForward p u_zoh steps T (← xs_curr_all.last) Kxs ds

/-- `pclqt_backwardforwardpass`, `parareal_clqt_tf.py:397-415`; returns `(xs, us)`. -/
def tensPrBackwardForward (d : TensFinal K) (blocks steps niter : ℕ) (x0 : Tens K) : Py (Tens K × Tens K) := do
  let r ← tensPrBackward p d blocks steps niter
  tensPrForward p blocks steps niter x0 d.T r.Kxs r.ds

/-! ### Forward-backward pass -/

/-- `pclqt_init_fwdbwdpass`, `parareal_clqt_tf.py:422-438`. -/
def tensPrInitFwdBwd (blocks : ℕ) (x0 : Tens K) (T : K) : Py (TensAbc K) := do
  let (dt, t0, e) ← tensClqtSeqFwdBwdDefaults x0 blocks T
  tensAbcPass p blocks dt t0 e

/-- `pclqt_dense_fwdbwdpass`, `parareal_clqt_tf.py:441-472`. -/
def tensPrDenseFwdBwd (steps : ℕ) (T : K) (cur : TensAbc K) : Py (TensAbc K) := do
  let blocks := (← cur.A.size 0) - 1
  let dt := T / ((blocks * steps : ℕ) : K)
  let t0 := tensPrTimes blocks steps dt
  let r ← tensAbcBatch p steps dt t0 ⟨← cur.A.init, ← cur.b.init, ← cur.C.init⟩
  let As_F ← r.A.last1
  let bs_F ← r.b.last1
  let Cs_F ← r.C.last1
  let As_F ← (← cur.A.select 0 0).consItem As_F
  let bs_F ← (← cur.b.select 0 0).consItem bs_F
  let Cs_F ← (← cur.C.select 0 0).consItem Cs_F
  return ⟨As_F, bs_F, Cs_F⟩

/-- `body` of `pclqt_coarse_fwdbwdpass`, `parareal_clqt_tf.py:499-512`; the carry is `((A, b, C), (A_G_new, b_G_new, C_G_new))`. -/
def tensPrCoarseAbcBody (dt : K) (carry : TensAbc K × TensAbc K) (inputs : K × TensAbc K × TensAbc K) : Py (TensAbc K × TensAbc K) := do
  let (t, F, G) := inputs
  let r ← tensAbcPass p 1 dt t carry.1
  let A_G_new ← r.A.last
  let b_G_new ← r.b.last
  let C_G_new ← r.C.last
  let A ← A_G_new.correct F.A G.A
  let b ← b_G_new.correct F.b G.b
  let C ← C_G_new.correct F.C G.C
  return (⟨A, b, C⟩, ⟨A_G_new, b_G_new, C_G_new⟩)

omit [Field K] [LinearOrder K] in
/-- The items of `As_F[1:]`, `bs_F[1:]` and `Cs_F[1:]` on which `tf.scan` works, `parareal_clqt_tf.py:516`; the first axes must fit. -/
def TensAbc.tailItems (e : TensAbc K) (blocks : ℕ) : Py (List (TensAbc K)) := do
  let A ← (← e.A.tail).items
  let b ← (← e.b.tail).items
  let C ← (← e.C.tail).items
  if A.length ≠ blocks ∨ b.length ≠ blocks ∨ C.length ≠ blocks then throw .valueError
  return (A.zip (b.zip C)).map fun a => ⟨a.1, a.2.1, a.2.2⟩

/-- `pclqt_coarse_fwdbwdpass`, `parareal_clqt_tf.py:475-527`; returns the current and the new coarse tensors. -/
def tensPrCoarseFwdBwd (T : K) (FF GG : TensAbc K) : Py (TensAbc K × TensAbc K) := do
  let blocks := (← FF.A.size 0) - 1
  let dt := T / (blocks : K)
  let ts := (List.range blocks).map fun k : ℕ => (k : K) * dt
  let A0 ← FF.A.select 0 0
  let b0 ← FF.b.select 0 0
  let C0 ← FF.C.select 0 0
  let F ← FF.tailItems blocks
  let G ← GG.tailItems blocks
  let r ← tfScanFwdM (tensPrCoarseAbcBody p dt) (⟨A0, b0, C0⟩, ⟨A0, b0, C0⟩) (ts.zip (F.zip G))
  let As ← Tens.stack A0.shape A0.val (r.map fun a => a.1.A)
  let bs ← Tens.stack b0.shape b0.val (r.map fun a => a.1.b)
  let Cs ← Tens.stack C0.shape C0.val (r.map fun a => a.1.C)
  let As_G_new ← Tens.stack A0.shape A0.val (r.map fun a => a.2.A)
  let bs_G_new ← Tens.stack b0.shape b0.val (r.map fun a => a.2.b)
  let Cs_G_new ← Tens.stack C0.shape C0.val (r.map fun a => a.2.C)
  let As ← A0.consItem As
  let bs ← b0.consItem bs
  let Cs ← C0.consItem Cs
  let As_G_new ← A0.consItem As_G_new
  let bs_G_new ← b0.consItem bs_G_new
  let Cs_G_new ← C0.consItem Cs_G_new
  return (⟨As, bs, Cs⟩, ⟨As_G_new, bs_G_new, Cs_G_new⟩)

/-- `pclqt_final_fwdbwdpass`, `parareal_clqt_tf.py:530-571`. -/
def tensPrFinalFwdBwd (steps : ℕ) (T : K) (cur : TensAbc K) : Py (TensAbc K) := do
  let blocks := (← cur.A.size 0) - 1
  let dt := T / (blocks : K) / (steps : K)
  let t0 := tensPrTimes blocks steps dt
  let r ← tensAbcBatch p steps dt t0 ⟨← cur.A.init, ← cur.b.init, ← cur.C.init⟩
  let AT ← (← r.A.last).last
  let bT ← (← r.b.last).last
  let CT ← (← r.C.last).last
  let As ← r.A.init1
  let bs ← r.b.init1
  let Cs ← r.C.init1
  let As ← As.mergeAxes
  let bs ← bs.mergeAxes
  let Cs ← Cs.mergeAxes
  let As ← As.pushItem AT
  let bs ← bs.pushItem bT
  let Cs ← Cs.pushItem CT
  return ⟨As, bs, Cs⟩

/-- `body` of `pclqt_fwdbwdpass`, `parareal_clqt_tf.py:590-597`; the carry is `((As_curr, bs_curr, Cs_curr), (As_G, bs_G, Cs_G))`. -/
def tensPrAbcBody (steps : ℕ) (T : K) (carry : TensAbc K × TensAbc K) : Py (TensAbc K × TensAbc K) := do
  let FF ← tensPrDenseFwdBwd p steps T carry.1
  tensPrCoarseFwdBwd p T FF carry.2

/-- `pclqt_fwdbwdpass`, `parareal_clqt_tf.py:574-612`. -/
def tensPrFwdBwd (blocks steps niter : ℕ) (x0 : Tens K) (T : K) : Py (TensAbc K) := do
  let cur ← tensPrInitFwdBwd p blocks x0 T
  let all ← tfScanFwdM (fun c (_ : ℕ) => tensPrAbcBody p steps T c) (cur, cur) (List.range niter)
  let As_curr_all ← Tens.stack cur.A.shape cur.A.val (all.map fun a => a.1.A)
  let bs_curr_all ← Tens.stack cur.b.shape cur.b.val (all.map fun a => a.1.b)
  let Cs_curr_all ← Tens.stack cur.C.shape cur.C.val (all.map fun a => a.1.C)
  let _ ← Tens.stack cur.A.shape cur.A.val (all.map fun a => a.2.A)
  let _ ← Tens.stack cur.b.shape cur.b.val (all.map fun a => a.2.b)
  let _ ← Tens.stack cur.C.shape cur.C.val (all.map fun a => a.2.C)
  tensPrFinalFwdBwd p steps T ⟨← As_curr_all.last, ← bs_curr_all.last, ← Cs_curr_all.last⟩

/-- `pclqt_backwardbwdfwdpass`, `parareal_clqt_tf.py:615-636`; returns `(xs, us)`. -/
def tensPrBackwardBwdFwd (d : TensFinal K) (blocks steps niter : ℕ) (x0 : Tens K) : Py (Tens K × Tens K) := do
  let r ← tensPrBackward p d blocks steps niter
  let e ← tensPrFwdBwd p blocks steps niter x0 d.T
  tensClqtCombine r.Kxs r.ds r.Ss r.vs e.b e.C

end Ordered

end Field

end Verif
