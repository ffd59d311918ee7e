import Verif.Model.CLQT

/-!
Model of the class `Parareal_CLQT_np`, `/repo/parallel_control/parareal_clqt_np.py:22-536`.

Simplifications as in `Verif.Model.CLQT`.
-/

namespace Verif

open Matrix

variable {n m : ℕ} {K : Type} [Field K] [LinearOrder K]

/-- `l[::step]` (`parareal_clqt_np.py:219`); a zero step raises `ValueError`. -/
def pyStride {β : Type} (l : List β) (step : ℕ) : Py (List β) :=
  if step = 0 then .error .valueError
  else (List.range ((l.length + step - 1) / step)).mapM fun i => pyGet l (i * step)

/-! ### Backward pass -/

/-- `initBackwardPass`, `parareal_clqt_np.py:35-47`. -/
def CLQT.prInitBackward (P : CLQT n m K) (blocks : ℕ) : Py (List (Matrix (Fin n) (Fin n) K) × List (Fin n → K)) := do
  let dt ← pyDiv P.T blocks
  let r ← P.seqBackwardPass blocks (some dt)
  return (r.S_list, r.v_list)

/-- `denseBackwardPass`, `parareal_clqt_np.py:49-81`. -/
def CLQT.prDenseBackward (P : CLQT n m K) (steps : ℕ) (S_curr : List (Matrix (Fin n) (Fin n) K)) (v_curr : List (Fin n → K)) :
    Py (List (Matrix (Fin n) (Fin n) K) × List (Fin n → K)) := do
  let blocks := S_curr.length - 1
  let S ← pyLast S_curr
  let v ← pyLast v_curr
  let dt ← pyDiv (← pyDiv P.T blocks) steps
  let rs ← (List.range blocks).reverse.mapM (fun (k : ℕ) => do
    let S ← pyGet S_curr (k + 1)
    let v ← pyGet v_curr (k + 1)
    let t1 := k * steps * dt
    let r ← P.seqBackwardPass steps (some dt) (some t1) (some S) (some v)
    return (← pyGet r.S_list 0, ← pyGet r.v_list 0))
  return ((S :: rs.map Prod.fst).reverse, (v :: rs.map Prod.snd).reverse)

/-- Loop variables of `coarseBackwardPass`, `parareal_clqt_np.py:103-108`. -/
structure PrBw (n : ℕ) (K : Type) where
  S : Matrix (Fin n) (Fin n) K
  v : Fin n → K
  S_G_new_list : List (Matrix (Fin n) (Fin n) K)
  v_G_new_list : List (Fin n → K)
  S_curr_list : List (Matrix (Fin n) (Fin n) K)
  v_curr_list : List (Fin n → K)

/-- One iteration of the loop of `coarseBackwardPass`, `parareal_clqt_np.py:109-119`. -/
def CLQT.prCoarseBwStep (P : CLQT n m K) (S_F S_G : List (Matrix (Fin n) (Fin n) K)) (v_F v_G : List (Fin n → K)) (dt : K)
    (st : PrBw n K) (k : ℕ) : Py (PrBw n K) := do
  let t1 := k * dt
  let r ← P.seqBackwardPass 1 (some dt) (some t1) (some st.S) (some st.v)
  let S_G_new ← pyGet r.S_list 0
  let v_G_new ← pyGet r.v_list 0
  let S := S_G_new + (← pyGet S_F k) - (← pyGet S_G k)
  let v := v_G_new + (← pyGet v_F k) - (← pyGet v_G k)
  return ⟨S, v, st.S_G_new_list ++ [S_G_new], st.v_G_new_list ++ [v_G_new], st.S_curr_list ++ [S], st.v_curr_list ++ [v]⟩

/-- `coarseBackwardPass`, `parareal_clqt_np.py:83-126`; returns `(S_curr_list, v_curr_list)`, `(S_G_new_list,
v_G_new_list)`. -/
def CLQT.prCoarseBackward (P : CLQT n m K) (FF GG : List (Matrix (Fin n) (Fin n) K) × List (Fin n → K)) :
    Py ((List (Matrix (Fin n) (Fin n) K) × List (Fin n → K)) × (List (Matrix (Fin n) (Fin n) K) × List (Fin n → K))) := do
  let blocks := FF.1.length - 1
  let dt ← pyDiv P.T blocks
  let S ← pyLast FF.1
  let v ← pyLast FF.2
  let st ← (List.range blocks).reverse.foldlM (P.prCoarseBwStep FF.1 GG.1 FF.2 GG.2 dt) ⟨S, v, [S], [v], [S], [v]⟩
  return ((st.S_curr_list.reverse, st.v_curr_list.reverse), (st.S_G_new_list.reverse, st.v_G_new_list.reverse))

/-- `finalBackwardPass`, `parareal_clqt_np.py:128-170`. -/
def CLQT.prFinalBackward (P : CLQT n m K) (steps : ℕ) (S_curr : List (Matrix (Fin n) (Fin n) K)) (v_curr : List (Fin n → K)) :
    Py (BwResult n m K) := do
  let blocks := S_curr.length - 1
  let S ← pyLast S_curr
  let v ← pyLast v_curr
  let dt ← pyDiv (← pyDiv P.T blocks) steps
  let rs ← (List.range blocks).reverse.mapM (fun (k : ℕ) => do
    let S ← pyGet S_curr (k + 1)
    let v ← pyGet v_curr (k + 1)
    let t1 := k * steps * dt
    let r ← P.seqBackwardPass steps (some dt) (some t1) (some S) (some v)
    (List.range steps).mapM (fun (i : ℕ) => do
      let j := steps - i - 1
      return (← pyGet r.S_list j, ← pyGet r.v_list j, ← pyGet r.Kx_list j, ← pyGet r.d_list j)))
  let l := rs.flatten
  return ⟨(l.map fun q => q.2.2.1).reverse, (l.map fun q => q.2.2.2).reverse, (S :: l.map fun q => q.1).reverse,
    (v :: l.map fun q => q.2.1).reverse⟩

/-- One Parareal iteration of `backwardPass`, `parareal_clqt_np.py:193-196`; the state is `(S_curr_list, v_curr_list)`,
`(S_G_list, v_G_list)`. -/
def CLQT.prBwIter (P : CLQT n m K) (steps : ℕ)
    (st : (List (Matrix (Fin n) (Fin n) K) × List (Fin n → K)) × (List (Matrix (Fin n) (Fin n) K) × List (Fin n → K))) :
    Py ((List (Matrix (Fin n) (Fin n) K) × List (Fin n → K)) × (List (Matrix (Fin n) (Fin n) K) × List (Fin n → K))) := do
  let FF ← P.prDenseBackward steps st.1.1 st.1.2
  P.prCoarseBackward FF st.2

/-- `backwardPass`, `parareal_clqt_np.py:172-198`. -/
def CLQT.prBackwardPass (P : CLQT n m K) (blocks steps : ℕ) (niter : Option ℕ := none) : Py (BwResult n m K) := do
  let niter := niter.getD steps
  let cur ← P.prInitBackward blocks
  let st ← (List.range niter).foldlM (fun st _ => P.prBwIter steps st) (cur, cur)
  P.prFinalBackward steps st.1.1 st.1.2

/-! ### Forward pass -/

/-- `initForwardPass`, `parareal_clqt_np.py:205-220`; `len(Kx_list) // blocks` raises `ZeroDivisionError` without blocks. -/
def CLQT.prInitForward (P : CLQT n m K) (blocks : ℕ) (x0 : Fin n → K) (Kx_list : List (Matrix (Fin m) (Fin n) K))
    (d_list : List (Fin m → K)) (u_zoh : Bool) : Py (List (Fin n → K)) := do
  if blocks = 0 then throw .zeroDivisionError
  let steps := Kx_list.length / blocks
  let Ks ← pyStride Kx_list steps
  let ds ← pyStride d_list steps
  let r ← P.seqForwardPass x0 Ks ds none none u_zoh
  return r.2

/-- `denseForwardPass`, `parareal_clqt_np.py:222-252`. -/
def CLQT.prDenseForward (P : CLQT n m K) (steps : ℕ) (x_curr : List (Fin n → K)) (Kx_list : List (Matrix (Fin m) (Fin n) K))
    (d_list : List (Fin m → K)) (u_zoh : Bool) : Py (List (Fin n → K)) := do
  let blocks := x_curr.length - 1
  let x ← pyGet x_curr 0
  let dt ← pyDiv (← pyDiv P.T blocks) steps
  let rs ← (List.range blocks).mapM (fun (k : ℕ) => do
    let x ← pyGet x_curr k
    let t1 := k * steps * dt
    let r ← P.seqForwardPass x (pySlice Kx_list (k * steps) ((k + 1) * steps))
      (pySlice d_list (k * steps) ((k + 1) * steps)) (some dt) (some t1) u_zoh
    pyLast r.2)
  return x :: rs

/-- One iteration of the loop of `coarseForwardPass`, `parareal_clqt_np.py:278-288`; the loop variables are `x`,
`x_G_new_list`, `x_curr_list`. -/
def CLQT.prCoarseFwStep (P : CLQT n m K) (x_F x_G : List (Fin n → K)) (Kx_list : List (Matrix (Fin m) (Fin n) K))
    (d_list : List (Fin m → K)) (u_zoh : Bool) (steps : ℕ) (dt : K) (st : (Fin n → K) × List (Fin n → K) × List (Fin n → K))
    (k : ℕ) : Py ((Fin n → K) × List (Fin n → K) × List (Fin n → K)) := do
  let t1 := k * dt
  let r ← P.seqForwardPass st.1 (pySlice Kx_list (k * steps) (k * steps + 1)) (pySlice d_list (k * steps) (k * steps + 1))
    (some dt) (some t1) u_zoh
  let x_G_new ← pyLast r.2
  let x := x_G_new + (← pyGet x_F (k + 1)) - (← pyGet x_G (k + 1))
  return (x, st.2.1 ++ [x_G_new], st.2.2 ++ [x])

/-- `coarseForwardPass`, `parareal_clqt_np.py:254-290`; returns `(x_curr_list, x_G_new_list)`. -/
def CLQT.prCoarseForward (P : CLQT n m K) (x_F x_G : List (Fin n → K)) (Kx_list : List (Matrix (Fin m) (Fin n) K))
    (d_list : List (Fin m → K)) (u_zoh : Bool) : Py (List (Fin n → K) × List (Fin n → K)) := do
  let blocks := x_F.length - 1
  if blocks = 0 then throw .zeroDivisionError
  let steps := Kx_list.length / blocks
  let dt ← pyDiv P.T blocks
  let x ← pyGet x_F 0
  let st ← (List.range blocks).foldlM (P.prCoarseFwStep x_F x_G Kx_list d_list u_zoh steps dt) (x, [x], [x])
  return (st.2.2, st.2.1)

/-- `finalForwardPass`, `parareal_clqt_np.py:292-327`. -/
def CLQT.prFinalForward (P : CLQT n m K) (steps : ℕ) (x_curr : List (Fin n → K)) (Kx_list : List (Matrix (Fin m) (Fin n) K))
    (d_list : List (Fin m → K)) (u_zoh : Bool) : Py (List (Fin m → K) × List (Fin n → K)) := do
  let blocks := x_curr.length - 1
  let dt ← pyDiv (← pyDiv P.T blocks) steps
  let rs ← (List.range blocks).mapM (fun (k : ℕ) => do
    let x ← pyGet x_curr k
    let t1 := k * steps * dt
    let r ← P.seqForwardPass x (pySlice Kx_list (k * steps) ((k + 1) * steps))
      (pySlice d_list (k * steps) ((k + 1) * steps)) (some dt) (some t1) u_zoh
    let l ← (List.range steps).mapM (fun (i : ℕ) => do
      return (← pyGet r.2 i, ← pyGet r.1 i))
    return (l, r.2))
  match rs.getLast? with
  | none => throw .unboundLocalError
  | some (_, bx) => do
    let x ← pyLast bx
    let l := (rs.map Prod.fst).flatten
    return (l.map Prod.snd, l.map Prod.fst ++ [x])

/-- One Parareal iteration of `forwardPass`, `parareal_clqt_np.py:351-354`; the state is `(x_curr_list, x_G_list)`. -/
def CLQT.prFwIter (P : CLQT n m K) (steps : ℕ) (Kx_list : List (Matrix (Fin m) (Fin n) K)) (d_list : List (Fin m → K))
    (u_zoh : Bool) (st : List (Fin n → K) × List (Fin n → K)) : Py (List (Fin n → K) × List (Fin n → K)) := do
  let x_F ← P.prDenseForward steps st.1 Kx_list d_list u_zoh
  P.prCoarseForward x_F st.2 Kx_list d_list u_zoh

/-- `forwardPass`, `parareal_clqt_np.py:329-356`; returns `(u_list, x_list)`. -/
def CLQT.prForwardPass (P : CLQT n m K) (blocks steps : ℕ) (x0 : Fin n → K) (Kx_list : List (Matrix (Fin m) (Fin n) K))
    (d_list : List (Fin m → K)) (u_zoh : Bool := false) (niter : Option ℕ := none) :
    Py (List (Fin m → K) × List (Fin n → K)) := do
  let niter := niter.getD steps
  let cur ← P.prInitForward blocks x0 Kx_list d_list u_zoh
  let st ← (List.range niter).foldlM (fun st _ => P.prFwIter steps Kx_list d_list u_zoh st) (cur, cur)
  P.prFinalForward steps st.1 Kx_list d_list u_zoh

/-! ### Forward-backward pass -/

/-- `initFwdBwdPass`, `parareal_clqt_np.py:362-377`. -/
def CLQT.prInitFwdBwd (P : CLQT n m K) (blocks : ℕ) (x0 : Fin n → K) : Py (AbcResult n K) := do
  let dt ← pyDiv P.T blocks
  P.seqFwdBwdPass x0 blocks (some dt)

/-- `denseFwdBwdPass`, `parareal_clqt_np.py:379-414`. -/
def CLQT.prDenseFwdBwd (P : CLQT n m K) (steps : ℕ) (cur : AbcResult n K) : Py (AbcResult n K) := do
  let blocks := cur.A_list.length - 1
  let A ← pyGet cur.A_list 0
  let b ← pyGet cur.b_list 0
  let C ← pyGet cur.C_list 0
  let dt ← pyDiv (← pyDiv P.T blocks) steps
  let rs ← (List.range blocks).mapM (fun (k : ℕ) => do
    let A ← pyGet cur.A_list k
    let b ← pyGet cur.b_list k
    let C ← pyGet cur.C_list k
    let t1 := k * steps * dt
    let r ← P.seqFwdBwdPass 0 steps (some dt) (some t1) (some A) (some b) (some C)
    return (← pyLast r.A_list, ← pyLast r.b_list, ← pyLast r.C_list))
  return ⟨A :: rs.map (fun q => q.1), b :: rs.map (fun q => q.2.1), C :: rs.map (fun q => q.2.2)⟩

/-- One iteration of the loop of `coarseFwdBwdPass`, `parareal_clqt_np.py:447-463`; the loop variables are `A`, `b`, `C`,
the new coarse lists and the current lists. -/
def CLQT.prCoarseAbcStep (P : CLQT n m K) (FF GG : AbcResult n K) (dt : K)
    (st : (Matrix (Fin n) (Fin n) K × (Fin n → K) × Matrix (Fin n) (Fin n) K) × AbcResult n K × AbcResult n K) (k : ℕ) :
    Py ((Matrix (Fin n) (Fin n) K × (Fin n → K) × Matrix (Fin n) (Fin n) K) × AbcResult n K × AbcResult n K) := do
  let t1 := k * dt
  let r ← P.seqFwdBwdPass 0 1 (some dt) (some t1) (some st.1.1) (some st.1.2.1) (some st.1.2.2)
  let A_G_new ← pyLast r.A_list
  let b_G_new ← pyLast r.b_list
  let C_G_new ← pyLast r.C_list
  let A := A_G_new + (← pyGet FF.A_list (k + 1)) - (← pyGet GG.A_list (k + 1))
  let b := b_G_new + (← pyGet FF.b_list (k + 1)) - (← pyGet GG.b_list (k + 1))
  let C := C_G_new + (← pyGet FF.C_list (k + 1)) - (← pyGet GG.C_list (k + 1))
  return ((A, b, C),
    ⟨st.2.1.A_list ++ [A_G_new], st.2.1.b_list ++ [b_G_new], st.2.1.C_list ++ [C_G_new]⟩,
    ⟨st.2.2.A_list ++ [A], st.2.2.b_list ++ [b], st.2.2.C_list ++ [C]⟩)

/-- `coarseFwdBwdPass`, `parareal_clqt_np.py:416-465`; returns the current lists and the new coarse lists. -/
def CLQT.prCoarseFwdBwd (P : CLQT n m K) (FF GG : AbcResult n K) : Py (AbcResult n K × AbcResult n K) := do
  let blocks := FF.A_list.length - 1
  let A ← pyGet FF.A_list 0
  let b ← pyGet FF.b_list 0
  let C ← pyGet FF.C_list 0
  let dt ← pyDiv P.T blocks
  let st ← (List.range blocks).foldlM (P.prCoarseAbcStep FF GG dt) ((A, b, C), ⟨[A], [b], [C]⟩, ⟨[A], [b], [C]⟩)
  return (st.2.2, st.2.1)

/-- `finalFwdBwdPass`, `parareal_clqt_np.py:467-507`. -/
def CLQT.prFinalFwdBwd (P : CLQT n m K) (steps : ℕ) (cur : AbcResult n K) : Py (AbcResult n K) := do
  let blocks := cur.A_list.length - 1
  let _ ← pyGet cur.A_list 0
  let _ ← pyGet cur.b_list 0
  let _ ← pyGet cur.C_list 0
  let dt ← pyDiv (← pyDiv P.T blocks) steps
  let rs ← (List.range blocks).mapM (fun (k : ℕ) => do
    let A ← pyGet cur.A_list k
    let b ← pyGet cur.b_list k
    let C ← pyGet cur.C_list k
    let t1 := k * steps * dt
    let r ← P.seqFwdBwdPass 0 steps (some dt) (some t1) (some A) (some b) (some C)
    let l ← (List.range steps).mapM (fun (i : ℕ) => do
      return (← pyGet r.A_list i, ← pyGet r.b_list i, ← pyGet r.C_list i))
    return (l, r))
  match rs.getLast? with
  | none => throw .unboundLocalError
  | some (_, r) => do
    let A ← pyLast r.A_list
    let b ← pyLast r.b_list
    let C ← pyLast r.C_list
    let l := (rs.map Prod.fst).flatten
    return ⟨l.map (fun q => q.1) ++ [A], l.map (fun q => q.2.1) ++ [b], l.map (fun q => q.2.2) ++ [C]⟩

/-- One Parareal iteration of `fwdBwdPass`, `parareal_clqt_np.py:531-534`. -/
def CLQT.prAbcIter (P : CLQT n m K) (steps : ℕ) (st : AbcResult n K × AbcResult n K) : Py (AbcResult n K × AbcResult n K) := do
  let FF ← P.prDenseFwdBwd steps st.1
  P.prCoarseFwdBwd FF st.2

/-- `fwdBwdPass`, `parareal_clqt_np.py:509-536`. -/
def CLQT.prFwdBwdPass (P : CLQT n m K) (blocks steps : ℕ) (x0 : Fin n → K) (niter : Option ℕ := none) :
    Py (AbcResult n K) := do
  let niter := niter.getD steps
  let cur ← P.prInitFwdBwd blocks x0
  let st ← (List.range niter).foldlM (fun st _ => P.prAbcIter steps st) (cur, cur)
  P.prFinalFwdBwd steps st.1

end Verif
