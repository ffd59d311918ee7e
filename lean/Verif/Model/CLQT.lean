import Verif.Model.LQT
import Verif.Model.Diffeq

/-!
Model of the packing functions (`/repo/parallel_control/clqt_np.py:21-143`) and of the class `CLQT`
(`clqt_np.py:909-1774`).

Simplifications: exact arithmetic over an ordered field `K`; matrix shapes are in the types and the output dimension
does not depend on time; `steps` and `blocks` are natural numbers; `T` is a Python number, so that a division by zero
raises `ZeroDivisionError`.
-/

namespace Verif

open Matrix

variable {n m : ℕ} {K : Type}

/-! ### Packing -/

/-- `pack_abcej`, `clqt_np.py:21-37`. -/
def packABCEJ [Zero K] (e : Elem n K) : Matrix (Fin n) (Fin (3 * n + 2)) K := Matrix.of fun i j =>
  if h : j.1 < n then e.A i ⟨j.1, h⟩
  else if h : j.1 < 2 * n then e.C i ⟨j.1 - n, by omega⟩
  else if h : j.1 < 3 * n then e.J i ⟨j.1 - 2 * n, by omega⟩
  else if j.1 = 3 * n then e.b i
  else if j.1 = 3 * n + 1 then e.eta i
  else 0

/-- `unpack_abcej`, `clqt_np.py:39-54`. -/
def unpackABCEJ (x : Matrix (Fin n) (Fin (3 * n + 2)) K) : Elem n K where
  A := Matrix.of fun i j => x i ⟨j.1, by omega⟩
  C := Matrix.of fun i j => x i ⟨n + j.1, by omega⟩
  J := Matrix.of fun i j => x i ⟨2 * n + j.1, by omega⟩
  b := fun i => x i ⟨3 * n, by omega⟩
  eta := fun i => x i ⟨3 * n + 1, by omega⟩

/-- `pack_Psiphi`, `clqt_np.py:56-69`. -/
def packPsiphi [Zero K] (Psi : Matrix (Fin n) (Fin n) K) (phi : Fin n → K) : Matrix (Fin n) (Fin (n + 1)) K :=
  Matrix.of fun i j => if h : j.1 < n then Psi i ⟨j.1, h⟩ else if j.1 = n then phi i else 0

/-- `unpack_Psiphi`, `clqt_np.py:71-83`. -/
def unpackPsiphi (x : Matrix (Fin n) (Fin (n + 1)) K) : Matrix (Fin n) (Fin n) K × (Fin n → K) :=
  (Matrix.of fun i j => x i ⟨j.1, by omega⟩, fun i => x i ⟨n, by omega⟩)

/-- `pack_abc`, `clqt_np.py:85-99`. -/
def packABC [Zero K] (A : Matrix (Fin n) (Fin n) K) (b : Fin n → K) (C : Matrix (Fin n) (Fin n) K) :
    Matrix (Fin n) (Fin (2 * n + 1)) K := Matrix.of fun i j =>
  if h : j.1 < n then A i ⟨j.1, h⟩
  else if h : j.1 < 2 * n then C i ⟨j.1 - n, by omega⟩
  else if j.1 = 2 * n then b i
  else 0

/-- `unpack_abc`, `clqt_np.py:101-114`. -/
def unpackABC (x : Matrix (Fin n) (Fin (2 * n + 1)) K) :
    Matrix (Fin n) (Fin n) K × (Fin n → K) × Matrix (Fin n) (Fin n) K :=
  (Matrix.of fun i j => x i ⟨j.1, by omega⟩, fun i => x i ⟨2 * n, by omega⟩,
    Matrix.of fun i j => x i ⟨n + j.1, by omega⟩)

/-- `pack_Sv`, `clqt_np.py:116-129`. -/
def packSv [Zero K] (S : Matrix (Fin n) (Fin n) K) (v : Fin n → K) : Matrix (Fin n) (Fin (n + 1)) K :=
  Matrix.of fun i j => if h : j.1 < n then S i ⟨j.1, h⟩ else if j.1 = n then v i else 0

/-- `unpack_Sv`, `clqt_np.py:131-143`. -/
def unpackSv (x : Matrix (Fin n) (Fin (n + 1)) K) : Matrix (Fin n) (Fin n) K × (Fin n → K) :=
  (Matrix.of fun i j => x i ⟨j.1, by omega⟩, fun i => x i ⟨n, by omega⟩)

/-! ### The class -/

/-- A CLQT object, `clqt_np.py:921-948`. -/
structure CLQT (n m : ℕ) (K : Type) where
  p : ℕ
  F : K → Matrix (Fin n) (Fin n) K
  L : K → Matrix (Fin n) (Fin m) K
  X : K → Matrix (Fin p) (Fin p) K
  U : K → Matrix (Fin m) (Fin m) K
  c : K → Fin n → K
  H : K → Matrix (Fin p) (Fin n) K
  r : K → Fin p → K
  pT : ℕ
  XT : Matrix (Fin pT) (Fin pT) K
  HT : Matrix (Fin pT) (Fin n) K
  rT : Fin pT → K
  T : K

variable [Field K]

/-- `a / b` for Python numbers (e.g. `clqt_np.py:1016`). -/
def pyDiv [DecidableEq K] (a b : K) : Py K := if b = 0 then .error .zeroDivisionError else .ok (a / b)

/-- `l[a:b]` for `0 ≤ a`, `0 ≤ b` (e.g. `clqt_np.py:1579`). -/
def pySlice {β : Type} (l : List β) (a b : ℕ) : List β := (l.drop a).take (b - a)

/-- `l[-1]` (e.g. `clqt_np.py:1583`). -/
def pyLast {β : Type} (l : List β) : Py β :=
  match l.getLast? with
  | some x => .ok x
  | none => .error .indexError

/-- `0.5 * (S + S.T)`, `clqt_np.py:1028` (also 1165 and others). -/
def symPart (S : Matrix (Fin n) (Fin n) K) : Matrix (Fin n) (Fin n) K := (1 / 2 : K) • (S + Sᵀ)

section Ordered
variable [LinearOrder K]

/-- The default `dt=self.T/steps`, `clqt_np.py:1015-1016` (also 1078-1079 and 1147-1148). -/
def CLQT.dtSeq (P : CLQT n m K) (steps : ℕ) (dt : Option K) : Py K :=
  match dt with
  | some dt => .ok dt
  | none => pyDiv P.T steps

/-- The default `dt=self.T/steps/blocks`, `clqt_np.py:1303-1304` (also 1368-1369, 1506-1507 and others). -/
def CLQT.dtPar (P : CLQT n m K) (blocks steps : ℕ) (dt : Option K) : Py K :=
  match dt with
  | some dt => .ok dt
  | none => do
    let a ← pyDiv P.T steps
    pyDiv a blocks

/-- `CLQT.riccati_ode_f`, `clqt_np.py:954-983`. -/
def CLQT.riccatiOdeF (P : CLQT n m K) (x : Matrix (Fin n) (Fin (n + 1)) K) (t : K) :
    Py (Matrix (Fin n) (Fin (n + 1)) K) := do
  let (S, v) := unpackSv x
  let L := P.L t
  let ULT ← solvePos (P.U t) Lᵀ
  let LULT := L * ULT
  let F := P.F t
  let X := P.X t
  let H := P.H t
  let r := P.r t
  let c := P.c t
  let dS := -Fᵀ * S - S * F + S * LULT * S - Hᵀ * X * H
  let dv := -(Hᵀ * X) *ᵥ r + S *ᵥ c - Fᵀ *ᵥ v + (S * LULT) *ᵥ v
  return packSv dS dv

/-- One iteration of the loop of `seqBackwardPass`, `clqt_np.py:1023-1040`. -/
def CLQT.bwStep (P : CLQT n m K) (dt t0 : K) (st : BwState n m K) (k : ℕ) : Py (BwState n m K) := do
  let t := t0 + (k + 1) * dt
  let x := packSv st.S st.v
  let x ← rk4T P.riccatiOdeF (-dt) x t
  let (S, v) := unpackSv x
  let S := symPart S
  let t := t0 + k * dt
  let ULT ← solvePos (P.U t) (P.L t)ᵀ
  let Kx := ULT * S
  let d := ULT *ᵥ v
  return { S := S, v := v, Kx_list := st.Kx_list ++ [Kx], d_list := st.d_list ++ [d], S_list := st.S_list ++ [S],
           v_list := st.v_list ++ [v] }

/-- `CLQT.seqBackwardPass`, `clqt_np.py:986-1047`. -/
def CLQT.seqBackwardPass (P : CLQT n m K) (steps : ℕ) (dt : Option K := none) (t0 : Option K := none)
    (S : Option (Matrix (Fin n) (Fin n) K) := none) (v : Option (Fin n → K) := none) : Py (BwResult n m K) := do
  let t0 := t0.getD 0
  let S := S.getD (P.HTᵀ * P.XT * P.HT)
  let v := v.getD ((P.HTᵀ * P.XT) *ᵥ P.rT)
  let dt ← P.dtSeq steps dt
  let st ← (List.range steps).reverse.foldlM (P.bwStep dt t0)
    { S := S, v := v, Kx_list := [], d_list := [], S_list := [S], v_list := [v] }
  return ⟨st.Kx_list.reverse, st.d_list.reverse, st.S_list.reverse, st.v_list.reverse⟩

/-- The right hand side in `seqForwardPass`, `clqt_np.py:1087-1090`. -/
def CLQT.fwOdeF (P : CLQT n m K) (u_zoh : Bool) (Kx : Matrix (Fin m) (Fin n) K) (d u : Fin m → K) (x : Fin n → K) (t : K) :
    Py (Fin n → K) :=
  if u_zoh then .ok (P.F t *ᵥ x + P.L t *ᵥ u + P.c t)
  else .ok (P.F t *ᵥ x + P.L t *ᵥ (-Kx *ᵥ x + d) + P.c t)

/-- One iteration of the loop of `seqForwardPass`, `clqt_np.py:1084-1093`; the loop variables are `u_list`, `x_list`, `x`. -/
def CLQT.fwStep (P : CLQT n m K) (u_zoh : Bool) (Kx_list : List (Matrix (Fin m) (Fin n) K)) (d_list : List (Fin m → K))
    (dt t0 : K) (st : List (Fin m → K) × List (Fin n → K) × (Fin n → K)) (k : ℕ) :
    Py (List (Fin m → K) × List (Fin n → K) × (Fin n → K)) := do
  let t := t0 + k * dt
  let Kx ← pyGet Kx_list k
  let d ← pyGet d_list k
  let u := -Kx *ᵥ st.2.2 + d
  let x ← rk4T (P.fwOdeF u_zoh Kx d u) dt st.2.2 t
  return (st.1 ++ [u], st.2.1 ++ [x], x)

/-- `CLQT.seqForwardPass`, `clqt_np.py:1049-1095`; returns `(u_list, x_list)`. -/
def CLQT.seqForwardPass (P : CLQT n m K) (x0 : Fin n → K) (Kx_list : List (Matrix (Fin m) (Fin n) K))
    (d_list : List (Fin m → K)) (dt : Option K := none) (t0 : Option K := none) (u_zoh : Bool := false) :
    Py (List (Fin m → K) × List (Fin n → K)) := do
  let steps := Kx_list.length
  let t0 := t0.getD 0
  let dt ← P.dtSeq steps dt
  let st ← (List.range steps).foldlM (P.fwStep u_zoh Kx_list d_list dt t0) ([], [x0], x0)
  return (st.1, st.2.1)

/-- `CLQT.fwdbwdpass_ode_f`, `clqt_np.py:1097-1127`. -/
def CLQT.fwdbwdOdeF (P : CLQT n m K) (x : Matrix (Fin n) (Fin (2 * n + 1)) K) (t : K) :
    Py (Matrix (Fin n) (Fin (2 * n + 1)) K) := do
  let L := P.L t
  let ULT ← solvePos (P.U t) Lᵀ
  let LULT := L * ULT
  let (A, b, C) := unpackABC x
  let F := P.F t
  let X := P.X t
  let H := P.H t
  let r := P.r t
  let c := P.c t
  let dA := F * A - C * Hᵀ * X * H * A
  let db := F *ᵥ b + (C * Hᵀ * X) *ᵥ r - (C * Hᵀ * X * H) *ᵥ b + c
  let dC := F * C - C * Hᵀ * X * H * C + C * Fᵀ + LULT
  return packABC dA db dC

/-- Result of `seqFwdBwdPass`: `(A_list, b_list, C_list)`, `clqt_np.py:1141-1142`. -/
@[ext] structure AbcResult (n : ℕ) (K : Type) where
  A_list : List (Matrix (Fin n) (Fin n) K)
  b_list : List (Fin n → K)
  C_list : List (Matrix (Fin n) (Fin n) K)

/-- One iteration of the loop of `seqFwdBwdPass`, `clqt_np.py:1160-1168`; the current `A`, `b`, `C` and the lists. -/
def CLQT.abcStep (P : CLQT n m K) (dt t0 : K)
    (st : (Matrix (Fin n) (Fin n) K × (Fin n → K) × Matrix (Fin n) (Fin n) K) × AbcResult n K) (k : ℕ) :
    Py ((Matrix (Fin n) (Fin n) K × (Fin n → K) × Matrix (Fin n) (Fin n) K) × AbcResult n K) := do
  let t := t0 + k * dt
  let x := packABC st.1.1 st.1.2.1 st.1.2.2
  let x ← rk4T P.fwdbwdOdeF dt x t
  let (A, b, C) := unpackABC x
  let C := symPart C
  return ((A, b, C), ⟨st.2.A_list ++ [A], st.2.b_list ++ [b], st.2.C_list ++ [C]⟩)

/-- `CLQT.seqFwdBwdPass`, `clqt_np.py:1129-1170`.  The argument `x0` is only used when `b` is not given; the calls that
pass `None` for it give `b`. -/
def CLQT.seqFwdBwdPass (P : CLQT n m K) (x0 : Fin n → K) (steps : ℕ) (dt : Option K := none) (t0 : Option K := none)
    (A : Option (Matrix (Fin n) (Fin n) K) := none) (b : Option (Fin n → K) := none)
    (C : Option (Matrix (Fin n) (Fin n) K) := none) : Py (AbcResult n K) := do
  let t0 := t0.getD 0
  let dt ← P.dtSeq steps dt
  let A := A.getD 0
  let b := b.getD x0
  let C := C.getD 0
  let st ← (List.range steps).foldlM (P.abcStep dt t0) ((A, b, C), ⟨[A], [b], [C]⟩)
  return st.2

/-- `CLQT.combineForwardBackward`, `clqt_np.py:1173-1204`. -/
def CLQT.combineForwardBackward (bw : BwResult n m K) (fw : AbcResult n K) : Py (List (Fin m → K) × List (Fin n → K)) := do
  let rs ← (List.range bw.S_list.length).mapM (fun (k : ℕ) => do
    let S ← pyGet bw.S_list k
    let v ← pyGet bw.v_list k
    let _ ← pyGet fw.A_list k
    let b ← pyGet fw.b_list k
    let C ← pyGet fw.C_list k
    let x ← solveV (1 + C * S) (b + C *ᵥ v)
    let u ← (if k < bw.Kx_list.length then do
        let Kx ← pyGet bw.Kx_list k
        let d ← pyGet bw.d_list k
        pure (some (-Kx *ᵥ x + d))
      else pure none)
    return (u, x))
  return ((rs.map Prod.fst).reduceOption, rs.map Prod.snd)

/-! ### Parallel backward pass -/

/-- `CLQT.bwpass_bw_ode_f`, `clqt_np.py:1210-1241`. -/
def CLQT.bwpassBwOdeF (P : CLQT n m K) (x : Matrix (Fin n) (Fin (3 * n + 2)) K) (t : K) :
    Py (Matrix (Fin n) (Fin (3 * n + 2)) K) := do
  let L := P.L t
  let ULT ← solvePos (P.U t) Lᵀ
  let LULT := L * ULT
  let ⟨A, _, _, eta, J⟩ := unpackABCEJ x
  let F := P.F t
  let X := P.X t
  let H := P.H t
  let r := P.r t
  let c := P.c t
  let dA := A * LULT * J - A * F
  let db := -(A * LULT) *ᵥ eta - A *ᵥ c
  let dC := -A * LULT * Aᵀ
  let deta := -(Hᵀ * X) *ᵥ r + (J * LULT) *ᵥ eta - Fᵀ *ᵥ eta + J *ᵥ c
  let dJ := -Hᵀ * X * H + J * LULT * J - J * F - Fᵀ * J
  return packABCEJ ⟨dA, db, dC, deta, dJ⟩

/-- `CLQT.bwpass_fw_ode_f`, `clqt_np.py:1243-1276`. -/
def CLQT.bwpassFwOdeF (P : CLQT n m K) (x : Matrix (Fin n) (Fin (3 * n + 2)) K) (t : K) :
    Py (Matrix (Fin n) (Fin (3 * n + 2)) K) := do
  let L := P.L t
  let ULT ← solvePos (P.U t) Lᵀ
  let LULT := L * ULT
  let ⟨A, b, C, _, _⟩ := unpackABCEJ x
  let F := P.F t
  let X := P.X t
  let H := P.H t
  let r := P.r t
  let c := P.c t
  let dA := F * A - C * Hᵀ * X * H * A
  let db := F *ᵥ b + (C * Hᵀ * X) *ᵥ r - (C * Hᵀ * X * H) *ᵥ b + c
  let dC := F * C - C * Hᵀ * X * H * C + C * Fᵀ + LULT
  let deta := (Aᵀ * Hᵀ * X) *ᵥ r - (Aᵀ * Hᵀ * X * H) *ᵥ b
  let dJ := Aᵀ * Hᵀ * X * H * A
  return packABCEJ ⟨dA, db, dC, deta, dJ⟩

/-- One step of the block integration, `clqt_np.py:1317-1322` (forward) and `1325-1330` (backward); copies at 1680-1685 and
1688-1693. -/
def CLQT.elemStep (f : Matrix (Fin n) (Fin (3 * n + 2)) K → K → Py (Matrix (Fin n) (Fin (3 * n + 2)) K)) (dt t : K)
    (e : Elem n K) : Py (Elem n K) := do
  let x := packABCEJ e
  let x ← rk4T f dt x t
  let ⟨A, b, C, eta, J⟩ := unpackABCEJ x
  return ⟨A, b, symPart C, eta, symPart J⟩

/-- Element of block `k`, `clqt_np.py:1308-1332` (copy at 1671-1695). -/
def CLQT.blockElem (P : CLQT n m K) (forward : Bool) (steps : ℕ) (dt t0 : K) (k : ℕ) : Py (Elem n K) :=
  let e : Elem n K := ⟨1, 0, 0, 0, 0⟩
  if forward then
    (List.range steps).foldlM (fun e (i : ℕ) => CLQT.elemStep P.bwpassFwOdeF dt (t0 + (k * steps + i) * dt) e) e
  else
    (List.range steps).reverse.foldlM (fun e (i : ℕ) => CLQT.elemStep P.bwpassBwOdeF (-dt) (t0 + (k * steps + i + 1) * dt) e) e

/-- `CLQT.parBackwardPass_init`, `clqt_np.py:1278-1343`. -/
def CLQT.parBackwardInit (P : CLQT n m K) (blocks steps : ℕ) (dt : Option K := none) (t0 : Option K := none)
    (forward : Bool := false) : Py (List (Elem n K)) := do
  let t0 := t0.getD 0
  let dt ← P.dtPar blocks steps dt
  let es ← (List.range blocks).mapM (P.blockElem forward steps dt t0)
  return es ++ [⟨0, 0, 0, (P.HTᵀ * P.XT) *ᵥ P.rT, P.HTᵀ * P.XT * P.HT⟩]

/-- `CLQT.parBackwardPass_extract`, `clqt_np.py:1345-1389`. -/
def CLQT.parBackwardExtract (P : CLQT n m K) (elems : List (Elem n K)) (steps : ℕ) (dt : Option K := none)
    (t0 : Option K := none) : Py (BwResult n m K) := do
  let blocks := elems.length - 1
  let t0 := t0.getD 0
  let dt ← P.dtPar blocks steps dt
  let e0 ← pyGet elems 0
  let rs ← (List.range blocks).mapM (fun (k : ℕ) => do
    let t1 := t0 + k * dt * steps
    let e ← pyGet elems (k + 1)
    let b ← P.seqBackwardPass steps (some dt) (some t1) (some e.J) (some e.eta)
    (List.range b.Kx_list.length).mapM (fun (i : ℕ) => do
      let S ← pyGet b.S_list (i + 1)
      let v ← pyGet b.v_list (i + 1)
      let Kx ← pyGet b.Kx_list i
      let d ← pyGet b.d_list i
      return (Kx, d, S, v)))
  let l := rs.flatten
  return ⟨l.map (fun q => q.1), l.map (fun q => q.2.1), e0.J :: l.map (fun q => q.2.2.1), e0.eta :: l.map (fun q => q.2.2.2)⟩

/-- `CLQT.parBackwardPass`, `clqt_np.py:1391-1425`, with `par_backward_pass_scan`, `lqt_np.py:56-65`. -/
def CLQT.parBackwardPass (P : CLQT n m K) (blocks steps : ℕ) (dt : Option K := none) (t0 : Option K := none)
    (forward : Bool := false) : Py (BwResult n m K) := do
  let t0 := t0.getD 0
  let dt ← P.dtPar blocks steps dt
  let elems ← P.parBackwardInit blocks steps (some dt) (some t0) forward
  let elems ← scanVals combineABCEJ elems true
  P.parBackwardExtract elems steps (some dt) (some t0)

/-! ### Parallel forward pass -/

/-- `CLQT.fwpass_fw_ode_f`, `clqt_np.py:1431-1451`. -/
def CLQT.fwpassFwOdeF (P : CLQT n m K) (x : Matrix (Fin n) (Fin (n + 1)) K) (t : K)
    (Kx_d : Matrix (Fin m) (Fin n) K × (Fin m → K)) : Py (Matrix (Fin n) (Fin (n + 1)) K) :=
  let (Kx, d) := Kx_d
  let (Psi, phi) := unpackPsiphi x
  let L := P.L t
  let tF := P.F t - L * Kx
  let tc := P.c t + L *ᵥ d
  let dPsi := tF * Psi
  let dphi := tF *ᵥ phi + tc
  .ok (packPsiphi dPsi dphi)

/-- `CLQT.fwpass_bw_ode_f`, `clqt_np.py:1453-1474`. -/
def CLQT.fwpassBwOdeF (P : CLQT n m K) (x : Matrix (Fin n) (Fin (n + 1)) K) (t : K)
    (Kx_d : Matrix (Fin m) (Fin n) K × (Fin m → K)) : Py (Matrix (Fin n) (Fin (n + 1)) K) :=
  let (Kx, d) := Kx_d
  let (Psi, _) := unpackPsiphi x
  let L := P.L t
  let tF := P.F t - L * Kx
  let tc := P.c t + L *ᵥ d
  let dPsi := -Psi * tF
  let dphi := -Psi *ᵥ tc
  .ok (packPsiphi dPsi dphi)

/-- One step of the block integration, `clqt_np.py:1523-1526` (forward) and `1529-1532` (backward). -/
def CLQT.psiStep (f : Matrix (Fin n) (Fin (n + 1)) K → K → (Matrix (Fin m) (Fin n) K × (Fin m → K)) →
      Py (Matrix (Fin n) (Fin (n + 1)) K))
    (Kx_list : List (Matrix (Fin m) (Fin n) K)) (d_list : List (Fin m → K)) (dt t : K) (j : ℕ)
    (e : Matrix (Fin n) (Fin n) K × (Fin n → K)) : Py (Matrix (Fin n) (Fin n) K × (Fin n → K)) := do
  let x := packPsiphi e.1 e.2
  let Kx ← pyGet Kx_list j
  let d ← pyGet d_list j
  let x ← rk4TP f dt x t (Kx, d)
  return unpackPsiphi x

/-- Element of block `k`, `clqt_np.py:1517-1534`. -/
def CLQT.psiElem (P : CLQT n m K) (forward : Bool) (Kx_list : List (Matrix (Fin m) (Fin n) K)) (d_list : List (Fin m → K))
    (steps : ℕ) (dt t0 : K) (k : ℕ) : Py (Matrix (Fin n) (Fin n) K × (Fin n → K)) :=
  let e : Matrix (Fin n) (Fin n) K × (Fin n → K) := (1, 0)
  if forward then
    (List.range steps).foldlM (fun e (i : ℕ) =>
      CLQT.psiStep P.fwpassFwOdeF Kx_list d_list dt (t0 + (k * steps + i) * dt) (k * steps + i) e) e
  else
    (List.range steps).reverse.foldlM (fun e (i : ℕ) =>
      CLQT.psiStep P.fwpassBwOdeF Kx_list d_list (-dt) (t0 + (k * steps + i + 1) * dt) (k * steps + i) e) e

/-- `CLQT.parForwardPass_init`, `clqt_np.py:1476-1536`. -/
def CLQT.parForwardInit (P : CLQT n m K) (x0 : Fin n → K) (Kx_list : List (Matrix (Fin m) (Fin n) K))
    (d_list : List (Fin m → K)) (blocks steps : ℕ) (dt : Option K := none) (t0 : Option K := none) (forward : Bool := true) :
    Py (List (Matrix (Fin n) (Fin n) K × (Fin n → K))) := do
  let t0 := t0.getD 0
  let dt ← P.dtPar blocks steps dt
  if blocks * steps ≠ Kx_list.length then throw .valueError
  let es ← (List.range blocks).mapM (P.psiElem forward Kx_list d_list steps dt t0)
  return (1, x0) :: es

/-- `CLQT.parForwardPass_extract`, `clqt_np.py:1538-1586`. -/
def CLQT.parForwardExtract (P : CLQT n m K) (Kx_list : List (Matrix (Fin m) (Fin n) K)) (d_list : List (Fin m → K))
    (elems : List (Matrix (Fin n) (Fin n) K × (Fin n → K))) (steps : ℕ) (dt : Option K := none) (t0 : Option K := none)
    (u_zoh : Bool := false) : Py (List (Fin m → K) × List (Fin n → K)) := do
  let blocks := elems.length - 1
  if blocks * steps ≠ Kx_list.length then throw .valueError
  let t0 := t0.getD 0
  let dt ← P.dtPar blocks steps dt
  let rs ← (List.range blocks).mapM (fun (k : ℕ) => do
    let e ← pyGet elems k
    let t1 := t0 + k * steps * dt
    let b ← P.seqForwardPass e.2 (pySlice Kx_list (k * steps) ((k + 1) * steps))
      (pySlice d_list (k * steps) ((k + 1) * steps)) (some dt) (some t1) u_zoh
    (List.range b.1.length).mapM (fun (i : ℕ) => do
      let u ← pyGet b.1 i
      let x ← pyGet b.2 i
      return (u, x)))
  let e ← pyLast elems
  return (rs.flatten.map Prod.fst, rs.flatten.map Prod.snd ++ [e.2])

/-- `CLQT.parForwardPass`, `clqt_np.py:1588-1622`, with `par_forward_pass_scan`, `lqt_np.py:68-77`. -/
def CLQT.parForwardPass (P : CLQT n m K) (x0 : Fin n → K) (Kx_list : List (Matrix (Fin m) (Fin n) K))
    (d_list : List (Fin m → K)) (blocks steps : ℕ) (dt : Option K := none) (t0 : Option K := none) (forward : Bool := true)
    (u_zoh : Bool := false) : Py (List (Fin m → K) × List (Fin n → K)) := do
  let t0 := t0.getD 0
  let dt ← P.dtPar blocks steps dt
  let elems ← P.parForwardInit x0 Kx_list d_list blocks steps (some dt) (some t0) forward
  let elems ← scanVals (fun x y => .ok (combineFC x y)) elems
  P.parForwardExtract Kx_list d_list elems steps (some dt) (some t0) u_zoh

/-! ### Parallel forward-backward pass -/

/-- `CLQT.parFwdBwdPass_init`, `clqt_np.py:1629-1698`. -/
def CLQT.parFwdBwdInit (P : CLQT n m K) (x0 : Fin n → K) (blocks steps : ℕ) (dt : Option K := none) (t0 : Option K := none)
    (forward : Bool := true) : Py (List (Elem n K)) := do
  let t0 := t0.getD 0
  let dt ← P.dtPar blocks steps dt
  let es ← (List.range blocks).mapM (P.blockElem forward steps dt t0)
  return ⟨0, x0, 0, 0, 0⟩ :: es

/-- `CLQT.parFwdBwdPass_extract`, `clqt_np.py:1700-1743`.  With no blocks the variable `bx_list` of line 1741 is not
assigned. -/
def CLQT.parFwdBwdExtract (P : CLQT n m K) (bw : BwResult n m K) (elems : List (Elem n K)) (steps : ℕ)
    (dt : Option K := none) (t0 : Option K := none) : Py (List (Fin m → K) × List (Fin n → K)) := do
  let blocks := elems.length - 1
  if blocks * steps ≠ bw.Kx_list.length then throw .valueError
  if blocks * steps + 1 ≠ bw.S_list.length then throw .valueError
  let t0 := t0.getD 0
  let dt ← P.dtPar blocks steps dt
  let rs ← (List.range blocks).mapM (fun (k : ℕ) => do
    let e ← pyGet elems k
    let t1 := t0 + k * steps * dt
    let fw ← P.seqFwdBwdPass 0 steps (some dt) (some t1) (some e.A) (some e.b) (some e.C)
    let b ← CLQT.combineForwardBackward
      ⟨pySlice bw.Kx_list (k * steps) ((k + 1) * steps), pySlice bw.d_list (k * steps) ((k + 1) * steps),
        pySlice bw.S_list (k * steps) ((k + 1) * steps + 1), pySlice bw.v_list (k * steps) ((k + 1) * steps + 1)⟩ fw
    let l ← (List.range b.1.length).mapM (fun (i : ℕ) => do
      let u ← pyGet b.1 i
      let x ← pyGet b.2 i
      return (u, x))
    return (l, b.2))
  match rs.getLast? with
  | none => throw .unboundLocalError
  | some (_, bx) => do
    let x ← pyLast bx
    let l := (rs.map Prod.fst).flatten
    return (l.map Prod.fst, l.map Prod.snd ++ [x])

/-- `CLQT.parFwdBwdPass`, `clqt_np.py:1745-1774`, with `par_fwdbwd_pass_scan`, `lqt_np.py:80-89`. -/
def CLQT.parFwdBwdPass (P : CLQT n m K) (x0 : Fin n → K) (bw : BwResult n m K) (blocks steps : ℕ)
    (dt : Option K := none) (t0 : Option K := none) (forward : Bool := true) :
    Py (List (Fin m → K) × List (Fin n → K)) := do
  let t0 := t0.getD 0
  let dt ← P.dtPar blocks steps dt
  let elems ← P.parFwdBwdInit x0 blocks steps (some dt) (some t0) forward
  let elems ← scanVals combineABCEJ elems
  P.parFwdBwdExtract bw elems steps (some dt) (some t0)

end Ordered

end Verif
