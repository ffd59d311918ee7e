import Verif.Model.CLQT
import Verif.Model.Disc
import Mathlib.Data.Matrix.ColumnRowPartitioned

/-!
Model of the class `CLQR` (`/repo/parallel_control/clqt_np.py:152-904`): the continuous-time regulator with constant
matrices.

Simplifications: those of `Verif.Model.CLQT`; the lists of elements given to the extraction functions are not empty (the
initialisation functions return at least one element).  The matrix exponentials and `lti_disc_u` of the method `'exact'` are
collected in a structure `ExpOps`; `ExpOps.real` is the exact arithmetic reading over the real numbers.
-/

namespace Verif

open Matrix

variable {n m : ℕ} {K : Type}

/-- A CLQR object, `clqt_np.py:163-179`. -/
structure CLQR (n m : ℕ) (K : Type) where
  F : Matrix (Fin n) (Fin n) K
  L : Matrix (Fin n) (Fin m) K
  X : Matrix (Fin n) (Fin n) K
  U : Matrix (Fin m) (Fin m) K
  XT : Matrix (Fin n) (Fin n) K
  T : K

/-- The argument `method`, `clqt_np.py:196-197`: `'rk4'`, `'exact'` or any other string. -/
inductive OdeMethod
  | rk4
  | exact
  | other
  deriving DecidableEq

/-- The functions used by the method `'exact'`: `linalg.expm` of a `2n × 2n` matrix (`clqt_np.py:239`), `linalg.expm` of an
`n × n` matrix (`clqt_np.py:307`) and `lti_disc_u` (`clqt_np.py:301`). -/
structure ExpOps (n m : ℕ) (K : Type) where
  expm2 : Matrix (Fin n ⊕ Fin n) (Fin n ⊕ Fin n) K → Matrix (Fin n ⊕ Fin n) (Fin n ⊕ Fin n) K
  expm : Matrix (Fin n) (Fin n) K → Matrix (Fin n) (Fin n) K
  ltiDiscU : Matrix (Fin n) (Fin n) K → Matrix (Fin n) (Fin m) K → Matrix (Fin n) (Fin m) K → K →
    Py (Matrix (Fin n) (Fin n) K × Matrix (Fin n) (Fin m) K × Matrix (Fin n) (Fin n) K)

/-- The functions used by the method `'exact'` over the real numbers, `clqt_np.py:239,301,307`. -/
noncomputable def ExpOps.real (n m : ℕ) : ExpOps n m ℝ where
  expm2 M := NormedSpace.exp M
  expm M := NormedSpace.exp M
  ltiDiscU F L G dt := Verif.ltiDiscU F L G .none dt

variable [Field K] [LinearOrder K]

/-- The default `dt = self.T / steps`, `clqt_np.py:207-208` (also 283-284 and 352-353). -/
def CLQR.dtSeq (P : CLQR n m K) (steps : ℕ) (dt : Option K) : Py K :=
  match dt with
  | some dt => .ok dt
  | none => pyDiv P.T steps

/-- `dt = self.T / steps / blocks`, `clqt_np.py:496` (also 549, 667, 720, 804 and 863). -/
def CLQR.dtPar (P : CLQR n m K) (blocks steps : ℕ) : Py K := do
  let a ← pyDiv P.T steps
  pyDiv a blocks

/-! ### Sequential passes -/

/-- Loop variables of `seqBackwardPass`: `S`, `Kx_list`, `S_list`, `clqt_np.py:210-211`. -/
structure RegState (n m : ℕ) (K : Type) where
  S : Matrix (Fin n) (Fin n) K
  Kx_list : List (Matrix (Fin m) (Fin n) K)
  S_list : List (Matrix (Fin n) (Fin n) K)

/-- The right hand side of the Riccati equation, `clqt_np.py:219`. -/
def CLQR.riccatiF (P : CLQR n m K) (LULT S : Matrix (Fin n) (Fin n) K) : Matrix (Fin n) (Fin n) K :=
  -P.Fᵀ * S - S * P.F + S * LULT * S - P.X

/-- One iteration of the loop of `seqBackwardPass` for `'rk4'`, `clqt_np.py:218-223`. -/
def CLQR.bwRkStep (P : CLQR n m K) (ULT : Matrix (Fin m) (Fin n) K) (dt : K) (st : RegState n m K) : Py (RegState n m K) := do
  let LULT := P.L * ULT
  let S ← rk4 (fun S => .ok (P.riccatiF LULT S)) (-dt) st.S
  let S := symPart S
  let Kx := ULT * S
  return { S := S, Kx_list := st.Kx_list ++ [Kx], S_list := st.S_list ++ [S] }

/-- The matrix `H`, `clqt_np.py:238`. -/
def CLQR.ham (P : CLQR n m K) (LULT : Matrix (Fin n) (Fin n) K) : Matrix (Fin n ⊕ Fin n) (Fin n ⊕ Fin n) K :=
  fromBlocks P.F (-LULT) (-P.X) (-P.Fᵀ)

/-- One iteration of the loop of `seqBackwardPass` for `'exact'`, `clqt_np.py:241-247`. -/
def CLQR.bwExStep (ULT : Matrix (Fin m) (Fin n) K) (Psi : Matrix (Fin n ⊕ Fin n) (Fin n ⊕ Fin n) K)
    (st : Matrix (Fin n ⊕ Fin n) (Fin n) K × RegState n m K) : Py (Matrix (Fin n ⊕ Fin n) (Fin n) K × RegState n m K) := do
  let CD := Psi * st.1
  let S ← solve (CD.toRows₁)ᵀ (CD.toRows₂)ᵀ
  let S := symPart S
  let Kx := ULT * S
  return (CD, { S := S, Kx_list := st.2.Kx_list ++ [Kx], S_list := st.2.S_list ++ [S] })

/-- `CLQR.seqBackwardPass`, `clqt_np.py:185-255`; returns `(Kx_list, S_list)`. -/
def CLQR.seqBackwardPass (P : CLQR n m K) (ops : ExpOps n m K) (steps : ℕ) (dt : Option K := none)
    (S : Option (Matrix (Fin n) (Fin n) K) := none) (method : OdeMethod := .rk4) :
    Py (List (Matrix (Fin m) (Fin n) K) × List (Matrix (Fin n) (Fin n) K)) := do
  let S := S.getD P.XT
  let dt ← P.dtSeq steps dt
  let ULT ← solvePos P.U P.Lᵀ
  let st0 : RegState n m K := { S := S, Kx_list := [], S_list := [S] }
  let st ← (match method with
    | .rk4 => (List.range steps).reverse.foldlM (fun st (_ : ℕ) => P.bwRkStep ULT dt st) st0
    | .exact => do
      let H := P.ham (P.L * ULT)
      let Psi := ops.expm2 ((-dt) • H)
      let CD := fromRows 1 S
      let r ← (List.range steps).reverse.foldlM (fun st (_ : ℕ) => CLQR.bwExStep ULT Psi st) (CD, st0)
      pure r.2
    | .other => throw .valueError)
  return (st.Kx_list.reverse, st.S_list.reverse)

/-- The right hand side in `seqForwardPass`, `clqt_np.py:292-295`. -/
def CLQR.fwF (P : CLQR n m K) (u_zoh : Bool) (Kx : Matrix (Fin m) (Fin n) K) (u : Fin m → K) (x : Fin n → K) : Fin n → K :=
  if u_zoh then P.F *ᵥ x + P.L *ᵥ u else (P.F - P.L * Kx) *ᵥ x

/-- One iteration of the loop of `seqForwardPass` for `'rk4'`, `clqt_np.py:290-298`; the loop variables are `u_list`, `x_list`,
`x`. -/
def CLQR.fwRkStep (P : CLQR n m K) (u_zoh : Bool) (Kx_list : List (Matrix (Fin m) (Fin n) K)) (dt : K)
    (st : List (Fin m → K) × List (Fin n → K) × (Fin n → K)) (k : ℕ) :
    Py (List (Fin m → K) × List (Fin n → K) × (Fin n → K)) := do
  let Kx ← pyGet Kx_list k
  let u := -Kx *ᵥ st.2.2
  let x ← rk4 (fun x => .ok (P.fwF u_zoh Kx u x)) dt st.2.2
  return (st.1 ++ [u], st.2.1 ++ [x], x)

/-- One iteration of the loop of `seqForwardPass` for `'exact'`, `clqt_np.py:302-309`. -/
def CLQR.fwExStep (P : CLQR n m K) (ops : ExpOps n m K) (A : Matrix (Fin n) (Fin n) K) (B : Matrix (Fin n) (Fin m) K)
    (u_zoh : Bool) (Kx_list : List (Matrix (Fin m) (Fin n) K)) (dt : K)
    (st : List (Fin m → K) × List (Fin n → K) × (Fin n → K)) (k : ℕ) :
    Py (List (Fin m → K) × List (Fin n → K) × (Fin n → K)) := do
  let Kx ← pyGet Kx_list k
  let u := -Kx *ᵥ st.2.2
  let x := if u_zoh then A *ᵥ st.2.2 + B *ᵥ u else ops.expm (dt • (P.F - P.L * Kx)) *ᵥ st.2.2
  return (st.1 ++ [u], st.2.1 ++ [x], x)

/-- `CLQR.seqForwardPass`, `clqt_np.py:257-314`; returns `(u_list, x_list)`. -/
def CLQR.seqForwardPass (P : CLQR n m K) (ops : ExpOps n m K) (x0 : Fin n → K) (Kx_list : List (Matrix (Fin m) (Fin n) K))
    (dt : Option K := none) (method : OdeMethod := .rk4) (u_zoh : Bool := false) :
    Py (List (Fin m → K) × List (Fin n → K)) := do
  let steps := Kx_list.length
  let dt ← P.dtSeq steps dt
  let st ← (match method with
    | .rk4 => (List.range steps).foldlM (P.fwRkStep u_zoh Kx_list dt) ([], [x0], x0)
    | .exact => do
      let ABQ ← ops.ltiDiscU P.F P.L P.L dt
      (List.range steps).foldlM (P.fwExStep ops ABQ.1 ABQ.2.1 u_zoh Kx_list dt) ([], [x0], x0)
    | .other => throw .valueError)
  return (st.1, st.2.1)

/-- `CLQR.fwdbwdpass_ode_f`, `clqt_np.py:316-336`. -/
def CLQR.fwdbwdOdeF (P : CLQR n m K) (x : Matrix (Fin n) (Fin (2 * n + 1)) K) : Py (Matrix (Fin n) (Fin (2 * n + 1)) K) := do
  let ULT ← solvePos P.U P.Lᵀ
  let LULT := P.L * ULT
  let (A, b, C) := unpackABC x
  let dA := P.F * A - C * P.X * A
  let db := P.F *ᵥ b - (C * P.X) *ᵥ b
  let dC := P.F * C - C * P.X * C + C * P.Fᵀ + LULT
  return packABC dA db dC

/-- One iteration of the loop of `seqFwdBwdPass`, `clqt_np.py:366-373`; the current `A`, `b`, `C` and the lists. -/
def CLQR.abcStep (P : CLQR n m K) (dt : K)
    (st : (Matrix (Fin n) (Fin n) K × (Fin n → K) × Matrix (Fin n) (Fin n) K) × AbcResult n K) :
    Py ((Matrix (Fin n) (Fin n) K × (Fin n → K) × Matrix (Fin n) (Fin n) K) × AbcResult n K) := do
  let x := packABC st.1.1 st.1.2.1 st.1.2.2
  let x ← rk4 P.fwdbwdOdeF dt x
  let (A, b, C) := unpackABC x
  let C := symPart C
  return ((A, b, C), ⟨st.2.A_list ++ [A], st.2.b_list ++ [b], st.2.C_list ++ [C]⟩)

/-- `CLQR.seqFwdBwdPass`, `clqt_np.py:338-381`.  The argument `x0` is only used when `b` is not given; the calls that pass
`None` for it give `b`. -/
def CLQR.seqFwdBwdPass (P : CLQR n m K) (x0 : Fin n → K) (steps : ℕ) (dt : Option K := none)
    (A : Option (Matrix (Fin n) (Fin n) K) := none) (b : Option (Fin n → K) := none)
    (C : Option (Matrix (Fin n) (Fin n) K) := none) (method : OdeMethod := .rk4) : Py (AbcResult n K) := do
  let dt ← P.dtSeq steps dt
  let A := A.getD 0
  let b := b.getD x0
  let C := C.getD 0
  match method with
  | .rk4 => do
    let st ← (List.range steps).foldlM (fun st (_ : ℕ) => P.abcStep dt st) ((A, b, C), ⟨[A], [b], [C]⟩)
    return st.2
  | .exact => throw .valueError
  | .other => throw .valueError

/-- `CLQR.combineForwardBackward`, `clqt_np.py:384-411`. -/
def CLQR.combineForwardBackward (Kx_list : List (Matrix (Fin m) (Fin n) K)) (S_list : List (Matrix (Fin n) (Fin n) K))
    (fw : AbcResult n K) : Py (List (Fin m → K) × List (Fin n → K)) := do
  let rs ← (List.range S_list.length).mapM (fun (k : ℕ) => do
    let S ← pyGet S_list k
    let _ ← pyGet fw.A_list k
    let b ← pyGet fw.b_list k
    let C ← pyGet fw.C_list k
    let x ← solveV (1 + C * S) b
    let u ← (if k < Kx_list.length then do
        let Kx ← pyGet Kx_list k
        pure (some (-Kx *ᵥ x))
      else pure none)
    return (u, x))
  return ((rs.map Prod.fst).reduceOption, rs.map Prod.snd)

/-! ### Parallel backward pass -/

/-- `CLQR.bwpass_bw_ode_f`, `clqt_np.py:418-440`. -/
def CLQR.bwpassBwOdeF (P : CLQR n m K) (x : Matrix (Fin n) (Fin (3 * n + 2)) K) : Py (Matrix (Fin n) (Fin (3 * n + 2)) K) := do
  let ULT ← solvePos P.U P.Lᵀ
  let LULT := P.L * ULT
  let ⟨A, _, _, eta, J⟩ := unpackABCEJ x
  let dA := A * LULT * J - A * P.F
  let db := (-A * LULT) *ᵥ eta
  let dC := -A * LULT * Aᵀ
  let deta := (J * LULT) *ᵥ eta - P.Fᵀ *ᵥ eta
  let dJ := -J * P.F + J * LULT * J - P.Fᵀ * J - P.X
  return packABCEJ ⟨dA, db, dC, deta, dJ⟩

/-- `CLQR.bwpass_fw_ode_f`, `clqt_np.py:442-464`. -/
def CLQR.bwpassFwOdeF (P : CLQR n m K) (x : Matrix (Fin n) (Fin (3 * n + 2)) K) : Py (Matrix (Fin n) (Fin (3 * n + 2)) K) := do
  let ULT ← solvePos P.U P.Lᵀ
  let LULT := P.L * ULT
  let ⟨A, b, C, _, _⟩ := unpackABCEJ x
  let dA := P.F * A - C * P.X * A
  let db := P.F *ᵥ b - (C * P.X) *ᵥ b
  let dC := P.F * C - C * P.X * C + C * P.Fᵀ + LULT
  let deta := (-Aᵀ * P.X) *ᵥ b
  let dJ := Aᵀ * P.X * A
  return packABCEJ ⟨dA, db, dC, deta, dJ⟩

/-- One step of the block integration, `clqt_np.py:500-504` (forward) and `507-511` (backward); copies at 808-812 and
815-819. -/
def CLQR.elemStep (f : Matrix (Fin n) (Fin (3 * n + 2)) K → Py (Matrix (Fin n) (Fin (3 * n + 2)) K)) (dt : K)
    (e : Elem n K) : Py (Elem n K) := do
  let x := packABCEJ e
  let x ← rk4 f dt x
  let ⟨A, b, C, eta, J⟩ := unpackABCEJ x
  return ⟨A, b, symPart C, eta, symPart J⟩

/-- The element common to all blocks, `clqt_np.py:489-516` (copy at 795-824). -/
def CLQR.blockElem (P : CLQR n m K) (forward : Bool) (blocks steps : ℕ) (method : OdeMethod) : Py (Elem n K) :=
  let e : Elem n K := ⟨1, 0, 0, 0, 0⟩
  match method with
  | .rk4 => do
    let dt ← P.dtPar blocks steps
    if forward then
      (List.range steps).foldlM (fun e (_ : ℕ) => CLQR.elemStep P.bwpassFwOdeF dt e) e
    else
      (List.range steps).reverse.foldlM (fun e (_ : ℕ) => CLQR.elemStep P.bwpassBwOdeF (-dt) e) e
  | .exact => .error .valueError
  | .other => .error .valueError

/-- `CLQR.parBackwardPass_init`, `clqt_np.py:466-527`. -/
def CLQR.parBackwardInit (P : CLQR n m K) (blocks steps : ℕ) (method : OdeMethod := .rk4) (forward : Bool := false) :
    Py (List (Elem n K)) := do
  let e ← P.blockElem forward blocks steps method
  return List.replicate blocks e ++ [⟨0, 0, 0, 0, P.XT⟩]

/-- `CLQR.parBackwardPass_extract`, `clqt_np.py:529-561`; returns `(Kx_list, S_list)`. -/
def CLQR.parBackwardExtract (P : CLQR n m K) (ops : ExpOps n m K) (elems : List (Elem n K)) (steps : ℕ)
    (method : OdeMethod := .rk4) : Py (List (Matrix (Fin m) (Fin n) K) × List (Matrix (Fin n) (Fin n) K)) := do
  let dt ← P.dtPar (elems.length - 1) steps
  let e0 ← pyGet elems 0
  let rs ← (List.range (elems.length - 1)).mapM (fun (k : ℕ) => do
    let e ← pyGet elems (k + 1)
    let b ← P.seqBackwardPass ops steps (some dt) (some e.J) method
    (List.range b.1.length).mapM (fun (i : ℕ) => do
      let S ← pyGet b.2 (i + 1)
      let Kx ← pyGet b.1 i
      return (Kx, S)))
  let l := rs.flatten
  return (l.map Prod.fst, e0.J :: l.map Prod.snd)

/-- `CLQR.parBackwardPass`, `clqt_np.py:563-594`, with `par_backward_pass_scan`, `lqt_np.py:56-65`. -/
def CLQR.parBackwardPass (P : CLQR n m K) (ops : ExpOps n m K) (blocks steps : ℕ) (init_method : OdeMethod := .rk4)
    (extract_method : OdeMethod := .rk4) : Py (List (Matrix (Fin m) (Fin n) K) × List (Matrix (Fin n) (Fin n) K)) := do
  let elems ← P.parBackwardInit blocks steps init_method
  let elems ← scanVals combineABCEJ elems true
  P.parBackwardExtract ops elems steps extract_method

/-! ### Parallel forward pass -/

/-- `CLQR.fwpass_fw_ode_f`, `clqt_np.py:600-614`. -/
def CLQR.fwpassFwOdeF (P : CLQR n m K) (x : Matrix (Fin n) (Fin (n + 1)) K) (Kx : Matrix (Fin m) (Fin n) K) :
    Py (Matrix (Fin n) (Fin (n + 1)) K) :=
  let (Psi, phi) := unpackPsiphi x
  let tF := P.F - P.L * Kx
  let dPsi := tF * Psi
  let dphi := tF *ᵥ phi
  .ok (packPsiphi dPsi dphi)

/-- `CLQR.fwpass_bw_ode_f`, `clqt_np.py:616-630`. -/
def CLQR.fwpassBwOdeF (P : CLQR n m K) (x : Matrix (Fin n) (Fin (n + 1)) K) (Kx : Matrix (Fin m) (Fin n) K) :
    Py (Matrix (Fin n) (Fin (n + 1)) K) :=
  let (Psi, _) := unpackPsiphi x
  let tF := P.F - P.L * Kx
  let dPsi := -Psi * tF
  .ok (packPsiphi dPsi 0)

/-- One step of the block integration, `clqt_np.py:676-678` (forward) and `681-683` (backward). -/
def CLQR.psiStep (f : Matrix (Fin n) (Fin (n + 1)) K → Matrix (Fin m) (Fin n) K → Py (Matrix (Fin n) (Fin (n + 1)) K))
    (Kx_list : List (Matrix (Fin m) (Fin n) K)) (dt : K) (j : ℕ) (e : Matrix (Fin n) (Fin n) K × (Fin n → K)) :
    Py (Matrix (Fin n) (Fin n) K × (Fin n → K)) := do
  let x := packPsiphi e.1 e.2
  let Kx ← pyGet Kx_list j
  let x ← rk4P f dt x Kx
  return unpackPsiphi x

/-- Element of block `k`, `clqt_np.py:670-688`. -/
def CLQR.psiElem (P : CLQR n m K) (forward : Bool) (Kx_list : List (Matrix (Fin m) (Fin n) K)) (steps : ℕ) (dt : K)
    (method : OdeMethod) (k : ℕ) : Py (Matrix (Fin n) (Fin n) K × (Fin n → K)) :=
  let e : Matrix (Fin n) (Fin n) K × (Fin n → K) := (1, 0)
  match method with
  | .rk4 =>
    if forward then
      (List.range steps).foldlM (fun e (i : ℕ) => CLQR.psiStep P.fwpassFwOdeF Kx_list dt (k * steps + i) e) e
    else
      (List.range steps).reverse.foldlM (fun e (i : ℕ) => CLQR.psiStep P.fwpassBwOdeF Kx_list (-dt) (k * steps + i) e) e
  | .exact => .error .valueError
  | .other => .error .valueError

/-- `CLQR.parForwardPass_init`, `clqt_np.py:632-692`. -/
def CLQR.parForwardInit (P : CLQR n m K) (x0 : Fin n → K) (Kx_list : List (Matrix (Fin m) (Fin n) K)) (blocks steps : ℕ)
    (method : OdeMethod := .rk4) (forward : Bool := true) : Py (List (Matrix (Fin n) (Fin n) K × (Fin n → K))) := do
  if blocks * steps ≠ Kx_list.length then throw .valueError
  let dt ← P.dtPar blocks steps
  let es ← (List.range blocks).mapM (P.psiElem forward Kx_list steps dt method)
  return (1, x0) :: es

/-- `CLQR.parForwardPass_extract`, `clqt_np.py:694-734`. -/
def CLQR.parForwardExtract (P : CLQR n m K) (ops : ExpOps n m K) (Kx_list : List (Matrix (Fin m) (Fin n) K))
    (elems : List (Matrix (Fin n) (Fin n) K × (Fin n → K))) (steps : ℕ) (method : OdeMethod := .rk4) (u_zoh : Bool := false) :
    Py (List (Fin m → K) × List (Fin n → K)) := do
  let blocks := elems.length - 1
  if blocks * steps ≠ Kx_list.length then throw .valueError
  let dt ← P.dtPar blocks steps
  let rs ← (List.range blocks).mapM (fun (k : ℕ) => do
    let e ← pyGet elems k
    let b ← P.seqForwardPass ops e.2 (pySlice Kx_list (k * steps) ((k + 1) * steps)) (some dt) method u_zoh
    (List.range b.1.length).mapM (fun (i : ℕ) => do
      let u ← pyGet b.1 i
      let x ← pyGet b.2 i
      return (u, x)))
  let e ← pyLast elems
  return (rs.flatten.map Prod.fst, rs.flatten.map Prod.snd ++ [e.2])

/-- `CLQR.parForwardPass`, `clqt_np.py:736-767`, with `par_forward_pass_scan`, `lqt_np.py:68-77`. -/
def CLQR.parForwardPass (P : CLQR n m K) (ops : ExpOps n m K) (x0 : Fin n → K) (Kx_list : List (Matrix (Fin m) (Fin n) K))
    (blocks steps : ℕ) (init_method : OdeMethod := .rk4) (extract_method : OdeMethod := .rk4) (u_zoh : Bool := false) :
    Py (List (Fin m → K) × List (Fin n → K)) := do
  let elems ← P.parForwardInit x0 Kx_list blocks steps init_method
  let elems ← scanVals (fun x y => .ok (combineFC x y)) elems
  P.parForwardExtract ops Kx_list elems steps extract_method u_zoh

/-! ### Parallel forward-backward pass -/

/-- `CLQR.parFwdBwdPass_init`, `clqt_np.py:773-841`. -/
def CLQR.parFwdBwdInit (P : CLQR n m K) (x0 : Fin n → K) (blocks steps : ℕ) (method : OdeMethod := .rk4)
    (forward : Bool := true) : Py (List (Elem n K)) := do
  let e ← P.blockElem forward blocks steps method
  return ⟨0, x0, 0, 0, 0⟩ :: List.replicate blocks e

/-- `CLQR.parFwdBwdPass_extract`, `clqt_np.py:843-878`.  With no blocks the variable `bx_list` of line 876 is not
assigned. -/
def CLQR.parFwdBwdExtract (P : CLQR n m K) (Kx_list : List (Matrix (Fin m) (Fin n) K)) (S_list : List (Matrix (Fin n) (Fin n) K))
    (elems : List (Elem n K)) (steps : ℕ) (method : OdeMethod := .rk4) : Py (List (Fin m → K) × List (Fin n → K)) := do
  let blocks := elems.length - 1
  if blocks * steps ≠ Kx_list.length then throw .valueError
  if blocks * steps + 1 ≠ S_list.length then throw .valueError
  let dt ← P.dtPar blocks steps
  let rs ← (List.range blocks).mapM (fun (k : ℕ) => do
    let e ← pyGet elems k
    let fw ← P.seqFwdBwdPass 0 steps (some dt) (some e.A) (some e.b) (some e.C) method
    let b ← CLQR.combineForwardBackward (pySlice Kx_list (k * steps) ((k + 1) * steps))
      (pySlice S_list (k * steps) ((k + 1) * steps + 1)) fw
    let l ← (List.range b.1.length).mapM (fun (i : ℕ) => do
      let u ← pyGet b.1 i
      let x ← pyGet b.2 i
      return (u, x))
    return (l, b.2))
  match rs.getLast? with
  | none => throw .unboundLocalError
  | some (_, bx) => do
    let x ← pyLast bx
    let l := (rs.map Prod.fst).flatten
    return (l.map Prod.fst, l.map Prod.snd ++ [x])

/-- `CLQR.parFwdBwdPass`, `clqt_np.py:880-904`, with `par_fwdbwd_pass_scan`, `lqt_np.py:80-89`. -/
def CLQR.parFwdBwdPass (P : CLQR n m K) (x0 : Fin n → K) (Kx_list : List (Matrix (Fin m) (Fin n) K))
    (S_list : List (Matrix (Fin n) (Fin n) K)) (blocks steps : ℕ) (init_method : OdeMethod := .rk4)
    (extract_method : OdeMethod := .rk4) : Py (List (Fin m → K) × List (Fin n → K)) := do
  let elems ← P.parFwdBwdInit x0 blocks steps init_method true
  let elems ← scanVals combineABCEJ elems
  P.parFwdBwdExtract Kx_list S_list elems steps extract_method

end Verif
