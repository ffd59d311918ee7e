import Verif.Model.CLQTPackTF
import Verif.Model.LQTTF

/-!
Model of `/repo/parallel_control/clqt_tf.py`.

Simplifications: exact arithmetic over an ordered field; the functions `F_f, L_f, X_f, U_f, c_f, H_f, r_f` and the tensors
`XT, HT, rT, T` are the fields of a `CLQT` object; `tf.vectorized_map` applies the function to each item and fails if it
fails for one item; tensors of unequal length, which TensorFlow rejects or broadcasts, are a `ValueError`; all TensorFlow
errors (`InvalidArgumentError`, for a singular matrix) are `linAlgError`; the division of a tensor by zero in the defaults, which
does not raise, is outside the model; `tfp.math.scan_associative` is any function with the contract `IsAssocScan`, its level
bound is treated in C54.
-/

namespace Verif

open Matrix

variable {n m : ℕ} {K : Type} [Field K]

/-- `tf.scan` with a body that can fail (e.g. `clqt_tf.py:523-525`): the outputs. -/
def tfScanFwdM {α β : Type} (body : β → α → Py β) (init : β) : List α → Py (List β)
  | [] => .ok []
  | a :: l => do
    let b ← body init a
    let r ← tfScanFwdM body b l
    return b :: r

/-- `t0 + tf.range(0, steps) * dt`, `clqt_tf.py:248,261` (also 375,389 and others). -/
def tfTimes (steps : ℕ) (dt t0 : K) : List K := (List.range steps).map fun k : ℕ => t0 + k * dt

/-- `t0 + tf.range(0, blocks) * steps * dt`, `clqt_tf.py:696` (also 823, 856, 1023 and others). -/
def tfBlockTimes (blocks steps : ℕ) (dt t0 : K) : List K := (List.range blocks).map fun k : ℕ => t0 + k * steps * dt

/-- `tf.reshape(l, (blocks, steps, ..))`, `clqt_tf.py:991-992` (also 1093-1094 and 1157-1158). -/
def tfReshape {β : Type} (blocks steps : ℕ) (l : List β) : Py (List (List β)) :=
  if l.length = blocks * steps then .ok ((List.range blocks).map fun q => pySlice l (q * steps) ((q + 1) * steps))
  else .error .valueError

/-! ### Sequential passes -/

/-- `clqt_seq_backwardpass_defaults`, `clqt_tf.py:140-160`: `dt`, `t0`, `ST`, `vT`. -/
def CLQT.tfSeqDefaults (P : CLQT n m K) (steps : ℕ) : K × K × Matrix (Fin n) (Fin n) K × (Fin n → K) :=
  (P.T / steps, 0, P.HTᵀ * (P.XT * P.HT), P.HTᵀ *ᵥ (P.XT *ᵥ P.rT))

/-- `par_backwardpass_defaults`, `clqt_tf.py:565-584`; `clqt_par_fwdbwdpass_defaults`, `clqt_tf.py:1216-1229`, gives the first
two. -/
def CLQT.tfParDefaults (P : CLQT n m K) (blocks steps : ℕ) : K × K × Matrix (Fin n) (Fin n) K × (Fin n → K) :=
  (P.T / ((steps * blocks : ℕ) : K), 0, P.HTᵀ * (P.XT * P.HT), P.HTᵀ *ᵥ (P.XT *ᵥ P.rT))

section Ordered
variable [LinearOrder K]

/-- `f` of `clqt_seq_backwardpass`, `clqt_tf.py:190-215`. -/
def CLQT.tfRiccatiF (P : CLQT n m K) (x : Matrix (Fin n) (Fin (n + 1)) K) (t : K) (_ : Unit) :
    Py (Matrix (Fin n) (Fin (n + 1)) K) := do
  let (S, v) := unpackSvTF x
  let U := P.U t
  let L := P.L t
  let F := P.F t
  let X := P.X t
  let H := P.H t
  let r := P.r t
  let c := P.c t
  let LULT := L * (← solve U Lᵀ)
  let dS := -(Fᵀ * S) - S * F + S * LULT * S - Hᵀ * X * H
  let dv := -(Hᵀ *ᵥ (X *ᵥ r)) + S *ᵥ c - Fᵀ *ᵥ v + S *ᵥ (LULT *ᵥ v)
  return packSvTF dS dv

/-- `body` of `clqt_seq_backwardpass`, `clqt_tf.py:217-242`. -/
def CLQT.tfBwBody (P : CLQT n m K) (dt : K) (st : TCarry n m K) (t : K) : Py (TCarry n m K) := do
  let x := packSvTF st.S st.v
  let x ← rk4TF P.tfRiccatiF (-dt) x (t + dt) ()
  let (S, v) := unpackSvTF x
  let S := (1 / 2 : K) • (S + Sᵀ)
  let ULT ← solve (P.U t) (P.L t)ᵀ
  let Kx := ULT * S
  let d := ULT *ᵥ v
  return ⟨S, v, Kx, d⟩

/-- `clqt_seq_backwardpass`, `clqt_tf.py:163-279`, for one initial time; returns `(Ss, vs, Kxs, ds)` as the record
`BwResult`. -/
def CLQT.tfSeqBackward (P : CLQT n m K) (steps : ℕ) (dt t0 : K) (ST : Matrix (Fin n) (Fin n) K) (vT : Fin n → K) :
    Py (BwResult n m K) := do
  let r ← tfScanRev (P.tfBwBody dt) ⟨ST, vT, 0, 0⟩ (tfTimes steps dt t0)
  return ⟨r.1.map TCarry.Kx, r.1.map TCarry.d, r.1.map TCarry.S ++ [ST], r.1.map TCarry.v ++ [vT]⟩

/-- `f_zoh` of `clqt_seq_forwardpass`, `clqt_tf.py:311-328`. -/
def CLQT.tfFzoh (P : CLQT n m K) (x : Fin n → K) (t : K) (u : Fin m → K) : Py (Fin n → K) :=
  .ok (P.F t *ᵥ x + P.L t *ᵥ u + P.c t)

/-- `f_no_zoh` of `clqt_seq_forwardpass`, `clqt_tf.py:330-348`. -/
def CLQT.tfFnoZoh (P : CLQT n m K) (x : Fin n → K) (t : K) (p : Matrix (Fin m) (Fin n) K × (Fin m → K)) : Py (Fin n → K) :=
  let u := -(p.1 *ᵥ x) + p.2
  .ok (P.F t *ᵥ x + P.L t *ᵥ u + P.c t)

/-- `body` of `clqt_seq_forwardpass`, `clqt_tf.py:350-369`. -/
def CLQT.tfFwBody (P : CLQT n m K) (u_zoh : Bool) (dt : K) (st : (Fin n → K) × (Fin m → K))
    (i : K × Matrix (Fin m) (Fin n) K × (Fin m → K)) : Py ((Fin n → K) × (Fin m → K)) := do
  let (t, Kx, d) := i
  let u := -(Kx *ᵥ st.1) + d
  let x ← (if u_zoh then rk4TF P.tfFzoh dt st.1 t u else rk4TF P.tfFnoZoh dt st.1 t (Kx, d))
  return (x, u)

/-- `clqt_seq_forwardpass`, `clqt_tf.py:282-405`, for one initial time; returns `(xs, us)`.  Line 388, `ds[0, :]`, fails
without a step. -/
def CLQT.tfSeqForward (P : CLQT n m K) (x0 : Fin n → K) (Kxs : List (Matrix (Fin m) (Fin n) K)) (ds : List (Fin m → K))
    (dt t0 : K) (u_zoh : Bool := false) : Py (List (Fin n → K) × List (Fin m → K)) := do
  if Kxs.length ≠ ds.length then throw .valueError
  let u0 ← pyGet ds 0
  let r ← tfScanFwdM (P.tfFwBody u_zoh dt) (x0, u0) ((tfTimes ds.length dt t0).zip (Kxs.zip ds))
  return (x0 :: r.map Prod.fst, r.map Prod.snd)

/-- `f` of `clqt_seq_fwdbwdpass`, `clqt_tf.py:456-487`. -/
def CLQT.tfAbcF (P : CLQT n m K) (x : Matrix (Fin n) (Fin (2 * n + 1)) K) (t : K) (_ : Unit) :
    Py (Matrix (Fin n) (Fin (2 * n + 1)) K) := do
  let (A, b, C) := unpackABCTF x
  let U := P.U t
  let L := P.L t
  let F := P.F t
  let X := P.X t
  let H := P.H t
  let r := P.r t
  let c := P.c t
  let ULT ← solve U Lᵀ
  let LULT := L * ULT
  let dA := F * A - C * Hᵀ * X * H * A
  let db := F *ᵥ b + C *ᵥ (Hᵀ *ᵥ (X *ᵥ r)) - C *ᵥ (Hᵀ *ᵥ (X *ᵥ (H *ᵥ b))) + c
  let dC := F * C - C * Hᵀ * X * H * C + C * Fᵀ + LULT
  return packABCTF dA db dC

/-- `body` of `clqt_seq_fwdbwdpass`, `clqt_tf.py:489-508`. -/
def CLQT.tfAbcBody (P : CLQT n m K) (dt : K) (st : Matrix (Fin n) (Fin n) K × (Fin n → K) × Matrix (Fin n) (Fin n) K) (t : K) :
    Py (Matrix (Fin n) (Fin n) K × (Fin n → K) × Matrix (Fin n) (Fin n) K) := do
  let x := packABCTF st.1 st.2.1 st.2.2
  let x ← rk4TF P.tfAbcF dt x t ()
  let (A, b, C) := unpackABCTF x
  let C := (1 / 2 : K) • (C + Cᵀ)
  return (A, b, C)

/-- `clqt_seq_fwdbwdpass`, `clqt_tf.py:429-538`, for one initial time; returns `(As, bs, Cs)`.  The defaults,
`clqt_seq_fwdbwdpass_defaults`, `clqt_tf.py:408-426`, are `A0 = 0`, `b0 = x0`, `C0 = 0`. -/
def CLQT.tfSeqFwdBwd (P : CLQT n m K) (steps : ℕ) (dt t0 : K) (A0 : Matrix (Fin n) (Fin n) K) (b0 : Fin n → K)
    (C0 : Matrix (Fin n) (Fin n) K) : Py (AbcResult n K) := do
  let r ← tfScanFwdM (P.tfAbcBody dt) (A0, b0, C0) (tfTimes steps dt t0)
  return ⟨A0 :: r.map fun a => a.1, b0 :: r.map fun a => a.2.1, C0 :: r.map fun a => a.2.2⟩

/-- `clqt_combine_fwdbwd`, `clqt_tf.py:541-559`; `As` is not used.  Returns `(xs, us)`. -/
def clqtTfCombine (bw : BwResult n m K) (fw : AbcResult n K) : Py (List (Fin n → K) × List (Fin m → K)) := do
  if bw.S_list.length ≠ fw.C_list.length ∨ bw.v_list.length ≠ fw.C_list.length ∨ fw.b_list.length ≠ fw.C_list.length ∨
    bw.Kx_list.length ≠ fw.C_list.length - 1 ∨ bw.d_list.length ≠ fw.C_list.length - 1 then throw .valueError
  let xs ← ((fw.C_list.zip fw.b_list).zip (bw.S_list.zip bw.v_list)).mapM fun a =>
    solveV (1 + a.1.1 * a.2.1) (a.1.2 + a.1.1 *ᵥ a.2.2)
  let us := List.zipWith (fun Kd x => -(Kd.1 *ᵥ x) + Kd.2) (bw.Kx_list.zip bw.d_list) xs.dropLast
  return (xs, us)

/-! ### Parallel backward pass -/

/-- `f` of `par_backwardpass_init_bw`, `clqt_tf.py:603-634`. -/
def CLQT.tfElemBwF (P : CLQT n m K) (x : Matrix (Fin n) (Fin (3 * n + 2)) K) (t : K) (_ : Unit) :
    Py (Matrix (Fin n) (Fin (3 * n + 2)) K) := do
  let ⟨A, _, _, eta, J⟩ := unpackABCEJTF x
  let U := P.U t
  let L := P.L t
  let F := P.F t
  let X := P.X t
  let H := P.H t
  let r := P.r t
  let c := P.c t
  let LULT := L * (← solve U Lᵀ)
  let dA := A * LULT * J - A * F
  let db := -(A *ᵥ (LULT *ᵥ eta)) - A *ᵥ c
  let dC := -(A * LULT * Aᵀ)
  let deta := -(Hᵀ *ᵥ (X *ᵥ r)) + J *ᵥ (LULT *ᵥ eta) - Fᵀ *ᵥ eta + J *ᵥ c
  let dJ := -(Hᵀ * X * H) + J * LULT * J - J * F - Fᵀ * J
  return packABCEJTF ⟨dA, db, dC, deta, dJ⟩

/-- `f` of `par_backwardpass_init_fw`, `clqt_tf.py:729-761`. -/
def CLQT.tfElemFwF (P : CLQT n m K) (x : Matrix (Fin n) (Fin (3 * n + 2)) K) (t : K) (_ : Unit) :
    Py (Matrix (Fin n) (Fin (3 * n + 2)) K) := do
  let ⟨A, b, C, _, _⟩ := unpackABCEJTF x
  let U := P.U t
  let L := P.L t
  let F := P.F t
  let X := P.X t
  let H := P.H t
  let r := P.r t
  let c := P.c t
  let LULT := L * (← solve U Lᵀ)
  let dA := F * A - C * Hᵀ * X * H * A
  let db := F *ᵥ b + C *ᵥ (Hᵀ *ᵥ (X *ᵥ r)) - C *ᵥ (Hᵀ *ᵥ (X *ᵥ (H *ᵥ b))) + c
  let dC := F * C - C * Hᵀ * X * H * C + C * Fᵀ + LULT
  let deta := Aᵀ *ᵥ (Hᵀ *ᵥ (X *ᵥ r)) - Aᵀ *ᵥ (Hᵀ *ᵥ (X *ᵥ (H *ᵥ b)))
  let dJ := Aᵀ * Hᵀ * X * H * A
  return packABCEJTF ⟨dA, db, dC, deta, dJ⟩

/-- `body` of `par_backwardpass_init_bw`, `clqt_tf.py:636-655`, and of `par_backwardpass_init_fw`, `clqt_tf.py:763-782`;
`h` is the time step of the integrator and `τ` its initial time. -/
def tfElemBody (f : Matrix (Fin n) (Fin (3 * n + 2)) K → K → Unit → Py (Matrix (Fin n) (Fin (3 * n + 2)) K)) (h : K)
    (e : Elem n K) (τ : K) : Py (Elem n K) := do
  let x := packABCEJTF e
  let x ← rk4TF f h x τ ()
  let ⟨A, b, C, eta, J⟩ := unpackABCEJTF x
  let C := (1 / 2 : K) • (C + Cᵀ)
  let J := (1 / 2 : K) • (J + Jᵀ)
  return ⟨A, b, C, eta, J⟩

/-- `singlePass` of `par_backwardpass_init_bw`, `clqt_tf.py:665-694`, and of `par_backwardpass_init_fw`, `clqt_tf.py:792-821`: the
value of the scan at the start or the end of the block. -/
def CLQT.tfBlockElem (P : CLQT n m K) (forward : Bool) (steps : ℕ) (dt t0 : K) : Py (Elem n K) := do
  let e : Elem n K := ⟨1, 0, 0, 0, 0⟩
  if forward then
    let es ← tfScanFwdM (fun e t => tfElemBody P.tfElemFwF dt e t) e (tfTimes steps dt t0)
    pyLast es
  else
    let es ← tfScanRev (fun e t => tfElemBody P.tfElemBwF (-dt) e (t + dt)) e (tfTimes steps dt t0)
    pyGet es.1 0

/-- `par_backwardpass_init_bw`, `clqt_tf.py:587-711`, and `par_backwardpass_init_fw`, `clqt_tf.py:714-838`. -/
def CLQT.tfParBackwardInit (P : CLQT n m K) (forward : Bool) (blocks steps : ℕ) (dt t0 : K) (ST : Matrix (Fin n) (Fin n) K)
    (vT : Fin n → K) : Py (List (Elem n K)) := do
  let es ← (tfBlockTimes blocks steps dt t0).mapM (P.tfBlockElem forward steps dt)
  return es ++ [⟨0, 0, 0, vT, ST⟩]

/-- `clqt_par_backwardpass_extract`, `clqt_tf.py:841-883`. -/
def CLQT.tfParBackwardExtract (P : CLQT n m K) (etas : List (Fin n → K)) (Js : List (Matrix (Fin n) (Fin n) K)) (steps : ℕ)
    (dt t0 : K) : Py (BwResult n m K) := do
  let blocks := Js.length - 1
  let rs ← ((tfBlockTimes blocks steps dt t0).zip (Js.tail.zip etas.tail)).mapM fun a =>
    P.tfSeqBackward steps dt a.1 a.2.1 a.2.2
  let S0 ← pyGet Js 0
  let v0 ← pyGet etas 0
  return ⟨(rs.map fun r => r.Kx_list).flatten, (rs.map fun r => r.d_list).flatten,
    S0 :: (rs.map fun r => r.S_list.tail).flatten, v0 :: (rs.map fun r => r.v_list.tail).flatten⟩

/-- `clqt_par_backwardpass`, `clqt_tf.py:886-926`. -/
def CLQT.tfParBackward (scan : (Elem n K → Elem n K → Py (Elem n K)) → List (Elem n K) → Py (List (Elem n K)))
    (P : CLQT n m K) (blocks steps : ℕ) (dt t0 : K) (ST : Matrix (Fin n) (Fin n) K) (vT : Fin n → K)
    (forward : Bool := false) : Py (BwResult n m K) := do
  let elems ← P.tfParBackwardInit forward blocks steps dt t0 ST vT
  let revElems ← scan tfCombVRev elems.reverse
  P.tfParBackwardExtract (revElems.reverse.map Elem.eta) (revElems.reverse.map Elem.J) steps dt t0

/-! ### Parallel forward pass -/

/-- `f` of `clqt_par_forwardpass_init_fw`, `clqt_tf.py:950-970`. -/
def CLQT.tfPsiFwF (P : CLQT n m K) (x : Matrix (Fin n) (Fin (n + 1)) K) (t : K) (Kx_d : Matrix (Fin m) (Fin n) K × (Fin m → K)) :
    Py (Matrix (Fin n) (Fin (n + 1)) K) :=
  let (Kx, d) := Kx_d
  let (Psi, phi) := unpackPsiphiTF x
  let L := P.L t
  let tF := P.F t - L * Kx
  let tc := P.c t + L *ᵥ d
  .ok (packPsiphiTF (tF * Psi) (tF *ᵥ phi + tc))

/-- `f` of `clqt_par_forwardpass_init_bw`, `clqt_tf.py:1052-1072`. -/
def CLQT.tfPsiBwF (P : CLQT n m K) (x : Matrix (Fin n) (Fin (n + 1)) K) (t : K) (Kx_d : Matrix (Fin m) (Fin n) K × (Fin m → K)) :
    Py (Matrix (Fin n) (Fin (n + 1)) K) :=
  let (Kx, d) := Kx_d
  let (Psi, _) := unpackPsiphiTF x
  let L := P.L t
  let tF := P.F t - L * Kx
  let tc := P.c t + L *ᵥ d
  .ok (packPsiphiTF (-(Psi * tF)) (-(Psi *ᵥ tc)))

/-- `body` of `clqt_par_forwardpass_init_fw`, `clqt_tf.py:972-989`, and of `clqt_par_forwardpass_init_bw`, `clqt_tf.py:1074-1091`;
`h` is the time step of the integrator and `τ` its initial time. -/
def tfPsiBody (f : Matrix (Fin n) (Fin (n + 1)) K → K → (Matrix (Fin m) (Fin n) K × (Fin m → K)) →
      Py (Matrix (Fin n) (Fin (n + 1)) K)) (h : K) (e : Matrix (Fin n) (Fin n) K × (Fin n → K)) (τ : K)
    (g : Matrix (Fin m) (Fin n) K × (Fin m → K)) : Py (Matrix (Fin n) (Fin n) K × (Fin n → K)) := do
  let x := packPsiphiTF e.1 e.2
  let x ← rk4TF f h x τ g
  return unpackPsiphiTF x

/-- `singlePass` of `clqt_par_forwardpass_init_fw`, `clqt_tf.py:997-1021`, and of `clqt_par_forwardpass_init_bw`,
`clqt_tf.py:1100-1123`. -/
def CLQT.tfPsiElem (P : CLQT n m K) (forward : Bool) (steps : ℕ) (dt t0 : K) (Kxs : List (Matrix (Fin m) (Fin n) K))
    (ds : List (Fin m → K)) : Py (Matrix (Fin n) (Fin n) K × (Fin n → K)) := do
  let i := (tfTimes steps dt t0).zip (Kxs.zip ds)
  if forward then
    let es ← tfScanFwdM (fun e (i : K × Matrix (Fin m) (Fin n) K × (Fin m → K)) => tfPsiBody P.tfPsiFwF dt e i.1 i.2) (1, 0) i
    pyLast es
  else
    let es ← tfScanRev (fun e (i : K × Matrix (Fin m) (Fin n) K × (Fin m → K)) => tfPsiBody P.tfPsiBwF (-dt) e (i.1 + dt) i.2) (1, 0) i
    pyGet es.1 0

/-- `clqt_par_forwardpass_init_fw`, `clqt_tf.py:933-1032`, and `clqt_par_forwardpass_init_bw`, `clqt_tf.py:1035-1134`. -/
def CLQT.tfParForwardInit (P : CLQT n m K) (forward : Bool) (blocks steps : ℕ) (x0 : Fin n → K)
    (Kxs : List (Matrix (Fin m) (Fin n) K)) (ds : List (Fin m → K)) (dt t0 : K) :
    Py (List (Matrix (Fin n) (Fin n) K × (Fin n → K))) := do
  let Ks ← tfReshape blocks steps Kxs
  let ds ← tfReshape blocks steps ds
  let es ← ((tfBlockTimes blocks steps dt t0).zip (Ks.zip ds)).mapM fun a => P.tfPsiElem forward steps dt a.1 a.2.1 a.2.2
  return (1, x0) :: es

/-- `clqt_par_forwardpass_extract`, `clqt_tf.py:1137-1173`; returns `(xs, us)`. -/
def CLQT.tfParForwardExtract (P : CLQT n m K) (Kxs : List (Matrix (Fin m) (Fin n) K)) (ds : List (Fin m → K))
    (phis : List (Fin n → K)) (steps : ℕ) (dt t0 : K) (u_zoh : Bool := false) :
    Py (List (Fin n → K) × List (Fin m → K)) := do
  let blocks := phis.length - 1
  let Ks ← tfReshape blocks steps Kxs
  let ds ← tfReshape blocks steps ds
  let rs ← ((tfBlockTimes blocks steps dt t0).zip (phis.dropLast.zip (Ks.zip ds))).mapM fun a =>
    P.tfSeqForward a.2.1 a.2.2.1 a.2.2.2 dt a.1 u_zoh
  let xT ← pyLast phis
  return ((rs.map fun r => r.1.dropLast).flatten ++ [xT], (rs.map fun r => r.2).flatten)

/-- `clqt_par_forwardpass`, `clqt_tf.py:1177-1210`; returns `(xs, us)`. -/
def CLQT.tfParForward (scan : (Matrix (Fin n) (Fin n) K × (Fin n → K) → Matrix (Fin n) (Fin n) K × (Fin n → K) →
      Py (Matrix (Fin n) (Fin n) K × (Fin n → K))) → List (Matrix (Fin n) (Fin n) K × (Fin n → K)) →
      Py (List (Matrix (Fin n) (Fin n) K × (Fin n → K))))
    (P : CLQT n m K) (blocks steps : ℕ) (x0 : Fin n → K) (Kxs : List (Matrix (Fin m) (Fin n) K)) (ds : List (Fin m → K))
    (dt t0 : K) (forward : Bool := true) (u_zoh : Bool := false) : Py (List (Fin n → K) × List (Fin m → K)) := do
  let elems ← P.tfParForwardInit forward blocks steps x0 Kxs ds dt t0
  let elems ← scan (fun a b => .ok (tfCombF a b)) elems
  P.tfParForwardExtract Kxs ds (elems.map Prod.snd) steps dt t0 u_zoh

/-! ### Parallel forward-backward pass -/

/-- `par_fwdbwdpass_init`, `clqt_tf.py:1232-1268`. -/
def CLQT.tfParFwdBwdInit (P : CLQT n m K) (forward : Bool) (blocks steps : ℕ) (x0 : Fin n → K) (dt t0 : K) :
    Py (List (Elem n K)) := do
  let es ← P.tfParBackwardInit forward blocks steps dt t0 1 0
  return ⟨0, x0, 0, 0, 0⟩ :: es.dropLast

/-- `clqt_par_fwdbwdpass_extract`, `clqt_tf.py:1271-1313`; returns `(xs, us)`. -/
def CLQT.tfParFwdBwdExtract (P : CLQT n m K) (elems : List (Elem n K)) (bw : BwResult n m K) (steps : ℕ) (dt t0 : K) :
    Py (List (Fin n → K) × List (Fin m → K)) := do
  let blocks := elems.length - 1
  let rs ← ((tfBlockTimes blocks steps dt t0).zip elems.dropLast).mapM fun a =>
    P.tfSeqFwdBwd steps dt a.1 a.2.A a.2.b a.2.C
  let r ← pyLast rs
  let AT ← pyLast r.A_list
  let bT ← pyLast r.b_list
  let CT ← pyLast r.C_list
  clqtTfCombine bw ⟨(rs.map fun r => r.A_list.dropLast).flatten ++ [AT], (rs.map fun r => r.b_list.dropLast).flatten ++ [bT],
    (rs.map fun r => r.C_list.dropLast).flatten ++ [CT]⟩

/-- `clqt_par_fwdbwdpass`, `clqt_tf.py:1316-1347`; returns `(xs, us)`. -/
def CLQT.tfParFwdBwd (scan : (Elem n K → Elem n K → Py (Elem n K)) → List (Elem n K) → Py (List (Elem n K)))
    (P : CLQT n m K) (blocks steps : ℕ) (x0 : Fin n → K) (bw : BwResult n m K) (dt t0 : K) (forward : Bool := true) :
    Py (List (Fin n → K) × List (Fin m → K)) := do
  let elems ← P.tfParFwdBwdInit forward blocks steps x0 dt t0
  let elems ← scan tfCombV elems
  P.tfParFwdBwdExtract elems bw steps dt t0

end Ordered

end Verif
