import Verif.Proof.NLQT
import Mathlib.Tactic.NormNum

/-! Properties C33 and C34: the nonlinear tracker. -/

namespace Verif

open Matrix

variable {n m : ℕ} {K : Type} [Field K]

/-! ### C33 -/

/-- C33 (linearisation): `linearize` completes exactly when the nominal trajectory fits into the horizon; a linearised step
keeps its cost terms, has the Jacobians as matrices, reproduces `f` at the nominal point, and later steps are unchanged. -/
theorem C33_linearize (M : NModel n m K) (P : LQT n m K) (us : List (Fin m → K)) (xs : List (Fin n → K)) :
    (us.length ≤ P.stages.length ∧ us.length ≤ xs.length → ∃ P', M.linearize P us xs = .ok P' ∧
      P'.stages.length = P.stages.length ∧ P' = { P with stages := P'.stages } ∧
      (∀ (k : ℕ) (x : Fin n → K) u s, xs[k]? = some x → us[k]? = some u → P.stages[k]? = some s →
        ∃ s', P'.stages[k]? = some s' ∧ s' = { s with F := M.Fx x u, L := M.Fu x u, c := s'.c } ∧ s'.next x u = M.f x u) ∧
      ∀ k, us.length ≤ k → P'.stages[k]? = P.stages[k]?) ∧
    (¬ (us.length ≤ P.stages.length ∧ us.length ≤ xs.length) → M.linearize P us xs = .error .indexError) := by
  refine ⟨?_, linearize_error⟩
  rintro ⟨h1, h2⟩
  obtain ⟨L, hL⟩ := linTo_exists M (ss := P.stages) h2
  refine ⟨_, linearize_iff.2 ⟨h1, h2, L, hL, rfl⟩, hL.1, rfl, ?_, ?_⟩
  · intro k x u s hx hu hs
    obtain ⟨x', u', e1, e2, e3⟩ := (hL.2 k s hs).1 (List.getElem?_eq_some_iff.1 hu).1
    rw [hx] at e1
    rw [hu] at e2
    cases e1
    cases e2
    exact ⟨_, e3, rfl, M.lin_next s x u⟩
  · intro k hk
    rcases lt_or_ge k P.stages.length with h | h
    · rw [List.getElem?_eq_getElem h]
      exact (hL.2 k _ (List.getElem?_eq_getElem h)).2 hk
    · rw [List.getElem?_eq_none (by rw [hL.1]; exact h), List.getElem?_eq_none h]

section Ordered
variable [LinearOrder K] [IsStrictOrderedRing K]

/-- C33 (fixed points): if an iteration returns its input, with any method, then the trajectory obeys the nonlinear
dynamics. -/
theorem C33_fixed_point (M : NModel n m K) (P P' : LQT n m K) (hP : P.Sym) (us : List (Fin m → K)) (xs : List (Fin n → K))
    (k : ℕ) (h : M.iterate P us xs k = .ok (P', us, xs)) :
    us.length = P.stages.length ∧ ∃ x0, xs[0]? = some x0 ∧ M.simulate x0 us = xs := by
  obtain ⟨hl, bw, x0, hb, hx, hf⟩ := iterate_seq hP h
  have hS := linearize_sym hP hl
  obtain ⟨us', hul, hf', -⟩ := seq_strict_min hS hb x0
  rw [hf, Except.ok.injEq, Prod.mk.injEq] at hf'
  obtain ⟨rfl, hxs⟩ := hf'
  obtain ⟨-, -, L, hL, rfl⟩ := linearize_iff.1 hl
  have hul' : us.length = L.length := hul
  refine ⟨hul'.trans hL.1, x0, hx, ?_⟩
  rw [M.simulate_eq, hxs]
  refine congrArg _ (run_eq M x0 hul ?_).symm
  intro i s y u h1 h2 h3
  have hi : i < L.length := (List.getElem?_eq_some_iff.1 h1).1
  have hi' : i < P.stages.length := hL.1 ▸ hi
  obtain ⟨x', u', e1, e2, e3⟩ := (hL.2 i _ (List.getElem?_eq_getElem hi')).1 (hul' ▸ hi)
  rw [hxs] at e1
  rw [h2] at e1
  rw [h3] at e2
  cases e1
  cases e2
  rw [h1] at e3
  cases e3
  exact M.lin_next _ _ _

/-- C33 (affine models): if the model is affine, one iteration from any nominal trajectory starting at `x0` returns the
globally optimal controls and the states they lead to. -/
theorem C33_affine (M : NModel n m K) (A : Matrix (Fin n) (Fin n) K) (B : Matrix (Fin n) (Fin m) K) (c : Fin n → K)
    (hf : ∀ x u, M.f x u = A *ᵥ x + c + B *ᵥ u) (hA : ∀ x u, M.Fx x u = A) (hB : ∀ x u, M.Fu x u = B)
    (P : LQT n m K) (hP : P.Convex) (hT : P.stages ≠ []) (us : List (Fin m → K)) (xs : List (Fin n → K)) (x0 : Fin n → K)
    (hu : us.length = P.stages.length) (hx : us.length ≤ xs.length) (hx0 : xs[0]? = some x0) (k : ℕ) :
    ∃ P' us' J, M.iterate P us xs k = .ok (P', us', M.simulate x0 us') ∧ us'.length = P.stages.length ∧
      M.cost P x0 us' = .ok J ∧ ∀ us'' : List (Fin m → K), us''.length = P.stages.length →
        ∃ J', M.cost P x0 us'' = .ok J' ∧ J ≤ J' ∧ (J' = J → us'' = us') := by
  obtain ⟨L, hL⟩ := linTo_exists M (ss := P.stages) hx
  have hl : M.linearize P us xs = .ok { P with stages := L } := linearize_iff.2 ⟨hu.le, hx, L, hL, rfl⟩
  have hC := linearize_convex hP hl
  have hTL : L ≠ [] := by
    intro h0
    have := hL.1
    rw [h0] at this
    exact hT (List.length_eq_zero_iff.1 this.symm)
  obtain ⟨bw, us', xs', h1, h2, h3, h4, h5, -⟩ := C23_convex _ hC hTL x0
  have hit : M.iterate P us xs k = .ok ({ P with stages := L }, us', xs') := by
    unfold NModel.iterate
    rw [hl]
    have hb : ∀ {α β : Type} (a : α) (f : α → Py β), ((Except.ok a : Py α) >>= f) = f a := fun _ _ => rfl
    simp only [hb, h1, h2, pyGet_eq.2 hx0, h3, h4, h5]
    split
    · rfl
    · split <;> rfl
  have hLi : ∀ (i : ℕ) (s : LStage n m K), P.stages[i]? = some s → L[i]? = some { s with F := A, c := c, L := B } := by
    intro i s hs
    have hi := (List.getElem?_eq_some_iff.1 hs).1
    obtain ⟨x, u, -, -, h⟩ := (hL.2 i s hs).1 (hu ▸ hi)
    rw [h]
    simp only [NModel.lin, hf, hA, hB]
    congr 2
    abel
  have hmap : L = P.stages.map fun s => { s with F := A, c := c, L := B } := by
    refine list_ext_of hL.1 (by simp) fun i hi => ?_
    rw [hLi i _ (List.getElem?_eq_getElem hi), List.getElem?_map, List.getElem?_eq_getElem hi]
    rfl
  have hrun : ∀ v : List (Fin m → K), v.length = P.stages.length → lqtRun L x0 v = M.run x0 v := by
    intro v hv
    refine run_eq M x0 (hv.trans hL.1.symm) fun i s y u h1 _ _ => ?_
    have hi := (List.getElem?_eq_some_iff.1 h1).1
    have := hLi i _ (List.getElem?_eq_getElem (hL.1 ▸ hi))
    rw [h1] at this
    cases this
    rw [hf]
    rfl
  have hcost : ∀ v : List (Fin m → K), v.length = P.stages.length →
      M.cost P x0 v = ({ P with stages := L } : LQT n m K).cost v (x0 :: lqtRun L x0 v) := by
    intro v hv
    unfold NModel.cost
    rw [M.simulate_eq, hrun v hv, hmap]
    unfold LQT.cost
    have hg : ∀ i, pyGet (P.stages.map fun s => ({ s with F := A, c := c, L := B } : LStage n m K)) i =
        (pyGet P.stages i).map fun s => { s with F := A, c := c, L := B } := by
      intro i
      unfold pyGet
      rw [List.getElem?_map]
      cases P.stages[i]? <;> rfl
    simp only [hg]
    have hbody : (fun (res : K) k => (do
        let s ← pyGet P.stages k
        let x ← pyGet (x0 :: M.run x0 v) k
        let u ← pyGet v k
        return res + s.cost x u : Py K)) = fun (res : K) k => (do
        let s ← Except.map (fun s : LStage n m K => ({ s with F := A, c := c, L := B } : LStage n m K)) (pyGet P.stages k)
        let x ← pyGet (x0 :: M.run x0 v) k
        let u ← pyGet v k
        return res + s.cost x u : Py K) := by
      funext res k
      cases pyGet P.stages k <;> rfl
    rw [hbody]
  obtain ⟨w, hwl, hwf, hmin⟩ := seq_strict_min hC.toSym h2 x0
  rw [h3, Except.ok.injEq, Prod.mk.injEq] at hwf
  obtain ⟨rfl, rfl⟩ := hwf
  have hwl' : us'.length = P.stages.length := hwl.trans hL.1
  refine ⟨{ P with stages := L }, us', _, ?_, hwl', (hcost us' hwl').trans (lqt_cost_eq hwl.le x0), ?_⟩
  · rw [hit, M.simulate_eq]
    rw [← hrun us' hwl']
  · intro v hv
    have hvl : v.length = ({ P with stages := L } : LQT n m K).stages.length := hv.trans hL.1.symm
    refine ⟨_, (hcost v hv).trans (lqt_cost_eq hvl.le x0), ?_, ?_⟩
    · by_cases he : v = us'
      · rw [he]
      · exact (hmin v hvl he).le
    · intro he
      by_contra hne
      exact absurd he (hmin v hvl hne).ne'

/-! ### C34 -/

/-- C34: for convex costs and at least one step the iteration completes, with the same result for every method. -/
theorem C34_methods (M : NModel n m K) (P : LQT n m K) (hP : P.Convex) (hT : P.stages ≠ []) (us : List (Fin m → K))
    (xs : List (Fin n → K)) (hu : us.length ≤ P.stages.length) (hx : us.length ≤ xs.length) (hxs : xs ≠ []) :
    ∃ r, ∀ k, M.iterate P us xs k = .ok r := by
  obtain ⟨x0, hx0⟩ : ∃ x0, xs[0]? = some x0 := by
    cases xs with
    | nil => exact absurd rfl hxs
    | cons x xs => exact ⟨x, rfl⟩
  obtain ⟨L, hL⟩ := linTo_exists M (ss := P.stages) hx
  have hl : M.linearize P us xs = .ok { P with stages := L } := linearize_iff.2 ⟨hu, hx, L, hL, rfl⟩
  have hC := linearize_convex hP hl
  have hTL : L ≠ [] := by
    intro h0
    have := hL.1
    rw [h0] at this
    exact hT (List.length_eq_zero_iff.1 this.symm)
  obtain ⟨bw, us', xs', h1, h2, h3, h4, h5, -⟩ := C23_convex _ hC hTL x0
  refine ⟨({ P with stages := L }, us', xs'), fun k => ?_⟩
  unfold NModel.iterate
  rw [hl]
  have hb : ∀ {α β : Type} (a : α) (f : α → Py β), ((Except.ok a : Py α) >>= f) = f a := fun _ _ => rfl
  simp only [hb, h1, h2, pyGet_eq.2 hx0, h3, h4, h5]
  split
  · rfl
  · split <;> rfl

/-- C34 (without convexity): whenever two methods complete on symmetric weights they return the same. -/
theorem C34_agree (M : NModel n m K) (P : LQT n m K) (hP : P.Sym) (us : List (Fin m → K)) (xs : List (Fin n → K)) (k l : ℕ)
    (r r' : LQT n m K × List (Fin m → K) × List (Fin n → K)) (h : M.iterate P us xs k = .ok r)
    (h' : M.iterate P us xs l = .ok r') : r = r' := by
  obtain ⟨Q, vs, ys⟩ := r
  obtain ⟨Q', vs', ys'⟩ := r'
  obtain ⟨hl, bw, x0, hb, hx, hf⟩ := iterate_seq hP h
  obtain ⟨hl', bw', x0', hb', hx', hf'⟩ := iterate_seq hP h'
  rw [hl] at hl'
  cases hl'
  rw [hb] at hb'
  cases hb'
  rw [hx] at hx'
  cases hx'
  rw [hf] at hf'
  cases hf'
  rfl

/-- C34 (no steps): the parallel methods fail, the sequential one returns the initial state. -/
theorem C34_empty (M : NModel n m K) (P : LQT n m K) (hT : P.stages = []) (x0 : Fin n → K) (xs : List (Fin n → K)) :
    M.iterate P [] (x0 :: xs) 0 = .error .indexError ∧ M.iterate P [] (x0 :: xs) 1 = .error .indexError ∧
    ∀ k, 2 ≤ k → M.iterate P [] (x0 :: xs) k = .ok (P, [], [x0]) := by
  have hl : M.linearize P [] (x0 :: xs) = .ok P := rfl
  obtain ⟨h1, h2⟩ := C21_empty P hT
  refine ⟨?_, ?_, fun k hk => ?_⟩
  · unfold NModel.iterate
    rw [hl]
    show (do let bw ← P.parBackwardPass; _) = _
    rw [h1]
    rfl
  · unfold NModel.iterate
    rw [hl]
    show (do let bw ← P.parBackwardPass; _) = _
    rw [h1]
    rfl
  · unfold NModel.iterate
    rw [hl]
    have hb : ∀ {α β : Type} (a : α) (f : α → Py β), ((Except.ok a : Py α) >>= f) = f a := fun _ _ => rfl
    rw [hb, if_neg (by omega), if_neg (by omega), h2, hb]
    show (do let r ← P.seqForwardPass x0 [] []; return (P, r)) = _
    rw [(C22_empty P x0 []).2]
    rfl

end Ordered

/-! ### Examples -/

/-- A nonlinear model with two states: `x₀' = x₀ + x₁²`, `x₁' = x₁ + u`. -/
def exNModel : NModel 2 1 ℚ where
  f x u := ![x 0 + x 1 ^ 2, x 1 + u 0]
  Fx x _ := !![1, 2 * x 1; 0, 1]
  Fu _ _ := !![0; 1]

/-- The three methods agree on it for the convex costs of `exLQT`. -/
example : ∃ r, ∀ k, exNModel.iterate exLQT [![1], ![-2], ![0]] [![1, 2], ![0, 0], ![3, 1], ![1, 1]] k = .ok r :=
  C34_methods exNModel exLQT exLQT_convex (by simp [exLQT]) _ _ (by simp [exLQT]) (by simp) (by simp)

/-- An affine model. -/
def exAModel : NModel 2 1 ℚ where
  f x u := !![1, 1; 0, 1] *ᵥ x + ![0, 1] + !![0; 1] *ᵥ u
  Fx _ _ := !![1, 1; 0, 1]
  Fu _ _ := !![0; 1]

example (k : ℕ) : ∃ P' us' J, exAModel.iterate exLQT [![1], ![-2], ![0]] [![1, 2], ![0, 0], ![3, 1], ![1, 1]] k =
    .ok (P', us', exAModel.simulate ![1, 2] us') ∧ exAModel.cost exLQT ![1, 2] us' = .ok J := by
  obtain ⟨P', us', J, h1, -, h2, -⟩ := C33_affine exAModel _ _ _ (fun _ _ => rfl) (fun _ _ => rfl) (fun _ _ => rfl) exLQT
    exLQT_convex (by simp [exLQT]) [![1], ![-2], ![0]] [![1, 2], ![0, 0], ![3, 1], ![1, 1]] ![1, 2] (by simp [exLQT])
    (by simp) rfl k
  exact ⟨P', us', J, h1, h2⟩

/-- A fixed point: the iteration on an affine model returns its input the second time. -/
example : ∃ P us xs P', exAModel.iterate P us xs 2 = .ok (P', us, xs) ∧ us.length = 3 := by
  have hn : ([![1, 2], ![0, 0], ![3, 1], ![1, 1]] : List (Fin 2 → ℚ))[0]? = some ![1, 2] := rfl
  obtain ⟨P', us', J, h1, hl, h2, hmin⟩ := C33_affine exAModel _ _ _ (fun _ _ => rfl) (fun _ _ => rfl) (fun _ _ => rfl) exLQT
    exLQT_convex (by simp [exLQT]) [![1], ![-2], ![0]] [![1, 2], ![0, 0], ![3, 1], ![1, 1]] ![1, 2] (by simp [exLQT])
    (by simp) hn 2
  have hsl : (exAModel.simulate ![1, 2] us').length = us'.length + 1 := by
    rw [exAModel.simulate_eq]
    have : ∀ (us : List (Fin 1 → ℚ)) x, (exAModel.run x us).length = us.length := by
      intro us
      induction us with
      | nil => intro x; rfl
      | cons u us ih => intro x; simp [NModel.run, ih]
    simp [this]
  obtain ⟨P'', us'', J', h1', hl', h2', hmin'⟩ := C33_affine exAModel _ _ _ (fun _ _ => rfl) (fun _ _ => rfl)
    (fun _ _ => rfl) exLQT exLQT_convex (by simp [exLQT]) us' (exAModel.simulate ![1, 2] us') ![1, 2] hl (by omega)
    (by rw [exAModel.simulate_eq]; rfl) 2
  obtain ⟨J1, a1, a2, a3⟩ := hmin us'' hl'
  obtain ⟨J2, b1, b2, b3⟩ := hmin' us' hl
  rw [h2'] at a1
  rw [h2] at b1
  cases a1
  cases b1
  have he := a3 (le_antisymm b2 a2)
  subst he
  exact ⟨exLQT, us'', _, P'', h1', hl⟩

end Verif
