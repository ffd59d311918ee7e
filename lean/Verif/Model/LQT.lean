import Verif.Model.Linalg
import Verif.Model.Scan

/-!
Model of the class `LQT` of `/repo/parallel_control/lqt_np.py:397-1226` and of the combination functions
(lines 20-89).

Simplifications: exact arithmetic over an ordered field `K`; matrix shapes are in the types, that is, the object
went through `checkAndExpand` (lines 445-603, modelled separately in `Verif.Model.LQTCheck`); the indexed
parameters, which have equal length, are zipped into one list of stages; the dimension of `r[k]` may vary
with `k`.
-/

namespace Verif

open Matrix

/-- Step data of an LQT object, `lqt_np.py:411-443`. -/
structure LStage (n m : ℕ) (K : Type) where
  p : ℕ
  F : Matrix (Fin n) (Fin n) K
  L : Matrix (Fin n) (Fin m) K
  X : Matrix (Fin p) (Fin p) K
  U : Matrix (Fin m) (Fin m) K
  c : Fin n → K
  H : Matrix (Fin p) (Fin n) K
  r : Fin p → K
  Z : Matrix (Fin m) (Fin m) K
  s : Fin m → K
  M : Matrix (Fin p) (Fin m) K

/-- An LQT object, `lqt_np.py:411-443`. -/
structure LQT (n m : ℕ) (K : Type) where
  stages : List (LStage n m K)
  pT : ℕ
  XT : Matrix (Fin pT) (Fin pT) K
  HT : Matrix (Fin pT) (Fin n) K
  rT : Fin pT → K

/-- Parameters `(A, b, C, eta, J)` of a conditional value function, `lqt_np.py:24-25`. -/
@[ext] structure Elem (n : ℕ) (K : Type) where
  A : Matrix (Fin n) (Fin n) K
  b : Fin n → K
  C : Matrix (Fin n) (Fin n) K
  eta : Fin n → K
  J : Matrix (Fin n) (Fin n) K

variable {n m : ℕ} {K : Type} [Field K]

/-- `combine_abcej`, `lqt_np.py:20-38`. -/
def combineABCEJ [DecidableEq K] (ij jk : Elem n K) : Py (Elem n K) := do
  let lu ← luFactor (1 + ij.C * jk.J)
  let A := jk.A * luSolve lu ij.A
  let b := jk.A *ᵥ luSolveV lu (ij.b + ij.C *ᵥ jk.eta) + jk.b
  let C := jk.A * luSolve lu (ij.C * jk.Aᵀ) + jk.C
  let lu ← luFactor (1 + jk.J * ij.C)
  let eta := ij.Aᵀ *ᵥ luSolveV lu (jk.eta - jk.J *ᵥ ij.b) + ij.eta
  let J := ij.Aᵀ * luSolve lu (jk.J * ij.A) + ij.J
  return ⟨A, b, C, eta, J⟩

/-- `combine_fc`, `lqt_np.py:41-53`. -/
def combineFC (ij jk : Matrix (Fin n) (Fin n) K × (Fin n → K)) : Matrix (Fin n) (Fin n) K × (Fin n → K) :=
  (jk.1 * ij.1, jk.1 *ᵥ ij.2 + jk.2)

section Gains
variable [LinearOrder K]

/-- Gain and offset of one step from the next value function, `lqt_np.py:631-640` (also 766-775). -/
def LStage.gains (s : LStage n m K) (S : Matrix (Fin n) (Fin n) K) (v : Fin n → K) :
    Py (Matrix (Fin m) (Fin n) K × (Fin m → K)) := do
  let cf ← choFactor (s.Zᵀ * s.U * s.Z + s.Lᵀ * S * s.L)
  let Kx := choSolve cf (s.Zᵀ * s.Mᵀ * s.H + s.Lᵀ * S * s.F)
  let d := choSolveV cf ((s.Zᵀ * s.U) *ᵥ s.s + (s.Zᵀ * s.Mᵀ) *ᵥ s.r - (s.Lᵀ * S) *ᵥ s.c + s.Lᵀ *ᵥ v)
  return (Kx, d)

/-- Variables of the loop of `seqBackwardPass`, `lqt_np.py:620-629`. -/
structure BwState (n m : ℕ) (K : Type) where
  S : Matrix (Fin n) (Fin n) K
  v : Fin n → K
  Kx_list : List (Matrix (Fin m) (Fin n) K)
  d_list : List (Fin m → K)
  S_list : List (Matrix (Fin n) (Fin n) K)
  v_list : List (Fin n → K)

/-- The new value function `(S, v)`, `lqt_np.py:641-649`. -/
def LStage.riccati (s : LStage n m K) (Kx : Matrix (Fin m) (Fin n) K) (S : Matrix (Fin n) (Fin n) K) (v : Fin n → K) :
    Matrix (Fin n) (Fin n) K × (Fin n → K) :=
  (s.Hᵀ * s.X * s.H - s.Hᵀ * s.M * s.Z * Kx + s.Fᵀ * S * (s.F - s.L * Kx),
   (s.Hᵀ * s.X) *ᵥ s.r - (Kxᵀ * s.Zᵀ * s.U) *ᵥ s.s + (s.Hᵀ * s.M) *ᵥ s.s - (Kxᵀ * s.Zᵀ * s.Mᵀ) *ᵥ s.r
     + (s.F - s.L * Kx)ᵀ *ᵥ (v - S *ᵥ s.c))

/-- One iteration of the loop of `seqBackwardPass`, `lqt_np.py:630-653`. -/
def bwStep (st : BwState n m K) (s : LStage n m K) : Py (BwState n m K) := do
  let (Kx, d) ← s.gains st.S st.v
  let Sv := s.riccati Kx st.S st.v
  return { S := Sv.1, v := Sv.2, Kx_list := st.Kx_list ++ [Kx], d_list := st.d_list ++ [d],
           S_list := st.S_list ++ [Sv.1], v_list := st.v_list ++ [Sv.2] }

/-- Result type of the backward passes: `(Kx_list, d_list, S_list, v_list)`, `lqt_np.py:612-616`. -/
@[ext] structure BwResult (n m : ℕ) (K : Type) where
  Kx_list : List (Matrix (Fin m) (Fin n) K)
  d_list : List (Fin m → K)
  S_list : List (Matrix (Fin n) (Fin n) K)
  v_list : List (Fin n → K)

/-- `LQT.seqBackwardPass`, `lqt_np.py:609-658`. -/
def LQT.seqBackwardPass (P : LQT n m K) : Py (BwResult n m K) := do
  let S := P.HTᵀ * P.XT * P.HT
  let v := (P.HTᵀ * P.XT) *ᵥ P.rT
  let st ← P.stages.reverse.foldlM bwStep
    { S := S, v := v, Kx_list := [], d_list := [], S_list := [S], v_list := [v] }
  return ⟨st.Kx_list.reverse, st.d_list.reverse, st.S_list.reverse, st.v_list.reverse⟩

/-- Element of one step, `lqt_np.py:718-731` (copies at 905-918 and 998-1011). -/
def LStage.parElem (s : LStage n m K) : Py (Elem n K) := do
  let lu ← luFactor (s.U * s.Z)
  let A := s.F - s.L * luSolve lu (s.Mᵀ * s.H)
  let b := s.c + s.L *ᵥ luSolveV lu (s.Mᵀ *ᵥ s.r) + s.L *ᵥ (← solveV s.Z s.s)
  let C := s.L * (← solvePos (s.Zᵀ * s.U * s.Z) s.Lᵀ)
  let Y := s.X - s.M * (← solve s.U s.Mᵀ)
  let eta := (s.Hᵀ * Y) *ᵥ s.r
  let J := s.Hᵀ * Y * s.H
  return ⟨A, b, C, eta, J⟩

/-- Terminal element, `lqt_np.py:733-738`. -/
def LQT.termElem (P : LQT n m K) : Elem n K :=
  ⟨0, 0, 0, (P.HTᵀ * P.XT) *ᵥ P.rT, P.HTᵀ * P.XT * P.HT⟩

/-- `LQT.parBackwardPass_init`, `lqt_np.py:708-740`; `self.F[0]` (line 733) raises `IndexError` when `T = 0`. -/
def LQT.parBackwardInit (P : LQT n m K) : Py (List (Elem n K)) := do
  let es ← P.stages.mapM LStage.parElem
  if P.stages.isEmpty then throw .indexError
  return es ++ [P.termElem]

/-- `LQT.parBackwardPass_extract`, `lqt_np.py:742-780`. -/
def LQT.parBackwardExtract (P : LQT n m K) (elems : List (Elem n K)) : Py (BwResult n m K) := do
  let e0 ← pyGet elems 0
  let rs ← (List.range (elems.length - 1)).mapM (fun k => do
    let e ← pyGet elems (k + 1)
    let s ← pyGet P.stages k
    let Kd ← s.gains e.J e.eta
    return (Kd, e))
  return ⟨rs.map (fun r => r.1.1), rs.map (fun r => r.1.2), e0.J :: rs.map (fun r => r.2.J),
    e0.eta :: rs.map (fun r => r.2.eta)⟩

/-- `LQT.parBackwardPass`, `lqt_np.py:782-799`, with `par_backward_pass_scan`, `lqt_np.py:56-65`. -/
def LQT.parBackwardPass (P : LQT n m K) : Py (BwResult n m K) := do
  let elems ← P.parBackwardInit
  let elems ← scanVals combineABCEJ elems true
  P.parBackwardExtract elems

/-- `LQT.parFwdBwdPass_init`, `lqt_np.py:888-920`; `self.F[0]` (line 899) raises `IndexError` when `T = 0`. -/
def LQT.parFwdBwdInit (P : LQT n m K) (x0 : Fin n → K) : Py (List (Elem n K)) := do
  if P.stages.isEmpty then throw .indexError
  let es ← P.stages.mapM LStage.parElem
  return ⟨0, x0, 0, 0, 0⟩ :: es

/-- `LQT.parFwdBwdPass_extract`, `lqt_np.py:922-951`. -/
def LQT.parFwdBwdExtract (bw : BwResult n m K) (elems : List (Elem n K)) :
    Py (List (Fin m → K) × List (Fin n → K)) := do
  let rs ← (List.range elems.length).mapM (fun k => do
    let e ← pyGet elems k
    let S ← pyGet bw.S_list k
    let v ← pyGet bw.v_list k
    let x ← solveV (1 + e.C * S) (e.b + e.C *ᵥ v)
    let u ← (if k < elems.length - 1 then do
        let Kx ← pyGet bw.Kx_list k
        let d ← pyGet bw.d_list k
        pure (some (-Kx *ᵥ x + d))
      else pure none)
    return (u, x))
  return ((rs.map Prod.fst).reduceOption, rs.map Prod.snd)

/-- `LQT.parFwdBwdPass`, `lqt_np.py:953-976`, with `par_fwdbwd_pass_scan`, `lqt_np.py:80-89`. -/
def LQT.parFwdBwdPass (P : LQT n m K) (x0 : Fin n → K) (bw : BwResult n m K) :
    Py (List (Fin m → K) × List (Fin n → K)) := do
  let elems ← P.parFwdBwdInit x0
  let elems ← scanVals combineABCEJ elems
  LQT.parFwdBwdExtract bw elems

/-- `LQT.parFwdBwdPass2_init`, `lqt_np.py:984-1013`. -/
def LQT.parFwdBwd2Init (P : LQT n m K) : Py (List (Elem n K)) := P.stages.mapM LStage.parElem

/-- `LQT.parFwdBwdPass2_extract`, `lqt_np.py:1015-1045`. -/
def LQT.parFwdBwd2Extract (x0 : Fin n → K) (bw : BwResult n m K) (elems : List (Elem n K)) :
    Py (List (Fin m → K) × List (Fin n → K)) := do
  let rs ← (List.range (elems.length + 1)).mapM (fun k => do
    let x ← (if k = 0 then pure x0 else do
      let e ← pyGet elems (k - 1)
      let S ← pyGet bw.S_list k
      let v ← pyGet bw.v_list k
      solveV (1 + e.C * S) (e.A *ᵥ x0 + e.b + e.C *ᵥ v))
    let u ← (if k < elems.length then do
        let Kx ← pyGet bw.Kx_list k
        let d ← pyGet bw.d_list k
        pure (some (-Kx *ᵥ x + d))
      else pure none)
    return (u, x))
  return ((rs.map Prod.fst).reduceOption, rs.map Prod.snd)

/-- `LQT.parFwdBwdPass2`, `lqt_np.py:1047-1067`. -/
def LQT.parFwdBwdPass2 (P : LQT n m K) (x0 : Fin n → K) (bw : BwResult n m K) :
    Py (List (Fin m → K) × List (Fin n → K)) := do
  let elems ← P.parFwdBwd2Init
  let elems ← scanVals combineABCEJ elems
  LQT.parFwdBwd2Extract x0 bw elems

end Gains

/-- Loop of `seqForwardPass`, `lqt_np.py:676-680`, as a recursion over the gain lists and the stages; a missing
offset (line 677) or stage (line 678) raises `IndexError`. -/
def lqtForwardLoop : List (LStage n m K) → List (Matrix (Fin m) (Fin n) K) → List (Fin m → K) → (Fin n → K) →
    Py (List (Fin m → K) × List (Fin n → K))
  | _, [], _, _ => .ok ([], [])
  | s :: ss, Kx :: Ks, d :: ds, x => do
    let u := -Kx *ᵥ x + d
    let x := s.F *ᵥ x + s.c + s.L *ᵥ u
    let r ← lqtForwardLoop ss Ks ds x
    return (u :: r.1, x :: r.2)
  | _, _, _, _ => .error .indexError

/-- `LQT.seqForwardPass`, `lqt_np.py:660-682`; returns `(u_list, x_list)`. -/
def LQT.seqForwardPass (P : LQT n m K) (x0 : Fin n → K) (Kx_list : List (Matrix (Fin m) (Fin n) K))
    (d_list : List (Fin m → K)) : Py (List (Fin m → K) × List (Fin n → K)) := do
  let r ← lqtForwardLoop P.stages Kx_list d_list x0
  return (r.1, x0 :: r.2)

/-- Loop of `seqSimulation`, `lqt_np.py:696-700`. -/
def lqtSimLoop : List (LStage n m K) → List (Fin m → K) → (Fin n → K) → Py (List (Fin n → K))
  | _, [], _ => .ok []
  | [], _ :: _, _ => .error .indexError
  | s :: ss, u :: us, x => do
    let x := s.F *ᵥ x + s.c + s.L *ᵥ u
    let r ← lqtSimLoop ss us x
    return x :: r

/-- `LQT.seqSimulation`, `lqt_np.py:684-702`. -/
def LQT.seqSimulation (P : LQT n m K) (x0 : Fin n → K) (u_list : List (Fin m → K)) : Py (List (Fin n → K)) := do
  let r ← lqtSimLoop P.stages u_list x0
  return x0 :: r

/-- `LQT.parForwardPass_init`, `lqt_np.py:806-830`. -/
def LQT.parForwardInit (P : LQT n m K) (x0 : Fin n → K) (Kx_list : List (Matrix (Fin m) (Fin n) K))
    (d_list : List (Fin m → K)) : Py (List (Matrix (Fin n) (Fin n) K × (Fin n → K))) :=
  (List.range Kx_list.length).mapM (fun k => do
    let s ← pyGet P.stages k
    let Kx ← pyGet Kx_list k
    let d ← pyGet d_list k
    if k = 0 then
      return (0, (s.F - s.L * Kx) *ᵥ x0 + s.c + s.L *ᵥ d)
    else
      return (s.F - s.L * Kx, s.c + s.L *ᵥ d))

/-- `LQT.parForwardPass_extract`, `lqt_np.py:832-861`. -/
def LQT.parForwardExtract (x0 : Fin n → K) (Kx_list : List (Matrix (Fin m) (Fin n) K)) (d_list : List (Fin m → K))
    (elems : List (Matrix (Fin n) (Fin n) K × (Fin n → K))) : Py (List (Fin m → K) × List (Fin n → K)) := do
  let rs ← (List.range Kx_list.length).mapM (fun k => do
    let Kx ← pyGet Kx_list k
    let d ← pyGet d_list k
    let u ← (if k = 0 then pure (-Kx *ᵥ x0 + d) else do
      let e ← pyGet elems (k - 1)
      pure (-Kx *ᵥ e.2 + d))
    let e ← pyGet elems k
    return (u, e.2))
  return (rs.map Prod.fst, x0 :: rs.map Prod.snd)

/-- `LQT.parForwardPass`, `lqt_np.py:863-880`, with `par_forward_pass_scan`, `lqt_np.py:68-77`. -/
def LQT.parForwardPass (P : LQT n m K) (x0 : Fin n → K) (Kx_list : List (Matrix (Fin m) (Fin n) K))
    (d_list : List (Fin m → K)) : Py (List (Fin m → K) × List (Fin n → K)) := do
  let elems ← P.parForwardInit x0 Kx_list d_list
  let elems ← scanVals (fun x y => .ok (combineFC x y)) elems
  LQT.parForwardExtract x0 Kx_list d_list elems

/-- The quadratic form `1/2 (y.T W y)` used in `cost`, `lqt_np.py:1219-1224`. -/
def halfQuad {p : ℕ} (W : Matrix (Fin p) (Fin p) K) (y : Fin p → K) : K := (1 / 2) * (y ⬝ᵥ W *ᵥ y)

/-- The three terms of step `k` in `cost`, `lqt_np.py:1222-1224`. -/
def LStage.cost (s : LStage n m K) (x : Fin n → K) (u : Fin m → K) : K :=
  halfQuad s.X (s.H *ᵥ x - s.r) + halfQuad s.U (s.Z *ᵥ u - s.s) +
    (s.H *ᵥ x - s.r) ⬝ᵥ s.M *ᵥ (s.Z *ᵥ u - s.s)

/-- `LQT.cost`, `lqt_np.py:1209-1226`. -/
def LQT.cost (P : LQT n m K) (u_list : List (Fin m → K)) (x_list : List (Fin n → K)) : Py K := do
  let xT ← match x_list.getLast? with
    | some x => Except.ok x
    | none => .error PyErr.indexError
  (List.range u_list.length).foldlM (fun res k => do
    let s ← pyGet P.stages k
    let x ← pyGet x_list k
    let u ← pyGet u_list k
    return res + s.cost x u) (halfQuad P.XT (P.HT *ᵥ xT - P.rT))

/-- The transformed step of `seqTransformedBackwardPass`, `lqt_np.py:1183-1191`, with the defaults `Z = I`, `s = 0`,
`M = 0` of `checkAndExpand` (line 1193). -/
def LStage.transformed [DecidableEq K] (s : LStage n m K) : Py (LStage n m K) := do
  let UI ← inv s.U
  return { p := s.p, F := s.F - s.L * UI * s.Mᵀ * s.H, L := s.L, X := s.X - s.M * UI * s.Mᵀ, U := s.U,
           c := s.c + (s.L * UI * s.Mᵀ) *ᵥ s.r + s.L *ᵥ s.s, H := s.H, r := s.r, Z := 1, s := 0, M := 0 }

/-- `LQT.seqTransformedBackwardPass`, `lqt_np.py:1158-1203`.  `self.F[0]` raises `IndexError` when `T = 0`
(line 1169); the default `M = zeros((rdim, udim))` of `checkAndExpand` has the dimension of `r[0]`, so that the
shape check (lines 599-601) raises `ValueError` unless all `r[k]` have the same dimension. -/
def LQT.seqTransformedBackwardPass [LinearOrder K] (P : LQT n m K) : Py (BwResult n m K) := do
  match P.stages with
  | [] => throw .indexError
  | s0 :: _ => do
    let ts ← P.stages.mapM LStage.transformed
    if P.stages.any (fun s => s.p != s0.p) then throw .valueError
    let bw ← LQT.seqBackwardPass { P with stages := ts }
    let gs ← (List.range P.stages.length).mapM (fun k => do
      let s ← pyGet P.stages k
      let UI ← inv s.U
      let Kx ← pyGet bw.Kx_list k
      let d ← pyGet bw.d_list k
      return (Kx + UI * s.Mᵀ * s.H, d + (UI * s.Mᵀ) *ᵥ s.r + s.s))
    return { bw with Kx_list := gs.map Prod.fst, d_list := gs.map Prod.snd }

end Verif
