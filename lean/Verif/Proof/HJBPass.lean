import Verif.Proof.HJB
import Mathlib.Logic.Function.Iterate

/-! The loops of the grid solvers in closed form. -/

namespace Verif

variable {n m : ℕ} {K : Type}

theorem foldl_const_iterate {β ι : Type} (F : β → β) : ∀ (l : List ι) (V : β),
    l.foldl (fun V _ => F V) V = F^[l.length] V
  | [], _ => rfl
  | _ :: l, V => by
    rw [List.foldl_cons, foldl_const_iterate F l]
    rfl

theorem append_loop {β γ : Type} (F : β → β) (g : β → γ) (V : β) (N : ℕ) :
    (List.range N).foldl (fun (st : β × List γ) _ => (F st.1, st.2 ++ [g (F st.1)])) (V, [g V]) =
      (F^[N] V, (List.range (N + 1)).map fun i => g (F^[i] V)) := by
  induction N with
  | zero => rfl
  | succ N ih =>
    rw [List.range_succ, List.foldl_append, ih, List.range_succ (n := N + 1), List.map_append]
    simp [Function.iterate_succ_apply']

theorem reverse_map_range {γ : Type} (h : ℕ → γ) (N : ℕ) :
    ((List.range (N + 1)).map h).reverse = (List.range (N + 1)).map fun k => h (N - k) := by
  apply List.ext_getElem
  · simp
  · intro k h1 h2
    simp

theorem fdLoop_eq {β : Type} (step : (Fin n → β) → (Fin n → β)) (blocks steps : ℕ) (VT : Fin n → β) :
    fdLoop step blocks steps VT = (List.range (blocks + 1)).map fun k => step^[(blocks - k) * steps] VT := by
  unfold fdLoop
  have h := append_loop (fun V => (List.range steps).foldl (fun V _ => step V) V) id VT blocks
  dsimp only [id] at h
  dsimp only
  rw [h]
  simp only [foldl_const_iterate, List.length_range]
  rw [reverse_map_range]
  apply List.map_congr_left
  intro k _
  rw [mul_comm, Function.iterate_mul]

theorem tfRangeScanRev_eq {β : Type} (body : β → β) (N : ℕ) (V : β) :
    tfRangeScanRev body N V = (List.range N).map fun k => body^[N - k] V := by
  unfold tfRangeScanRev
  have h : (List.range N).foldl (fun (st : β × List β) (_ : ℕ) => (body st.1, body st.1 :: st.2)) (V, ([] : List β)) =
      (body^[N] V, (List.range N).map fun k => body^[N - k] V) := by
    induction N with
    | zero => rfl
    | succ N ih =>
      rw [List.range_succ, List.foldl_append, ih, ← List.range_succ, List.range_succ_eq_map]
      simp only [List.foldl_cons, List.foldl_nil, List.map_cons, List.map_map, ← Function.iterate_succ_apply']
      refine Prod.ext rfl ?_
      show _ :: _ = _ :: _
      congr 1
      apply List.map_congr_left
      intro k _
      show _ = body^[N + 1 - (k + 1)] V
      rw [Nat.add_sub_add_right]
  rw [h]

theorem pySliceStep_map {β : Type} (h : ℕ → β) (b s : ℕ) (hs : s ≠ 0) :
    pySliceStep ((List.range (b * s + 1)).map h) s = .ok ((List.range (b + 1)).map fun k => h (k * s)) := by
  unfold pySliceStep
  rw [if_neg hs]
  have hl : pyRangeStep ((List.range (b * s + 1)).map h).length s = (List.range (b + 1)).map fun k => k * s := by
    unfold pyRangeStep
    have e : (b * s + 1 + s - 1) / s = b + 1 := by
      have : b * s + 1 + s - 1 = s * (b + 1) := by
        have : b * s + 1 + s - 1 = b * s + s := by omega
        rw [this]; ring
      rw [this, Nat.mul_div_cancel_left _ (Nat.pos_of_ne_zero hs)]
    rw [List.length_map, List.length_range, e]
    apply List.ext_getElem
    · simp
    · intro k h1 h2
      simp [mul_comm]
  rw [hl, List.mapM_map]
  apply mapM_range_of
  intro k hk
  have h1 : k * s < b * s + 1 := by
    have : k * s ≤ b * s := Nat.mul_le_mul_right _ (by omega)
    omega
  unfold Function.comp
  rw [pyGet_lt (by simpa using h1)]
  simp

theorem scan_stride {β : Type} (body : β → β) (b s : ℕ) (hs : s ≠ 0) (V : β) :
    pySliceStep (tfRangeScanRev body (b * s) V ++ [V]) s = .ok ((List.range (b + 1)).map fun k => body^[(b - k) * s] V) := by
  have h : tfRangeScanRev body (b * s) V ++ [V] = (List.range (b * s + 1)).map fun k => body^[b * s - k] V := by
    rw [tfRangeScanRev_eq, List.range_succ, List.map_append]
    simp
  rw [h, pySliceStep_map _ _ _ hs]
  congr 1
  apply List.map_congr_left
  intro k _
  rw [Nat.sub_mul]

section Fd
variable [Field K] [LinearOrder K] [NeZero m]

theorem symStepTF_eq (f L : K → K → K) (grid : Fin (n + 2) → K) (ug : Fin m → K) (dx dt : K) :
    symStepTF f L grid ug dx dt = symStep f L grid ug dx dt := by
  funext V i
  unfold symStepTF symStep
  dsimp only
  rw [← argmin1_val]

/-- Closed form of the finite difference passes. -/
theorem fdPass_eq (M : HJB (n + 2) K) (ug : Fin m → K) (hb : M.blocks ≠ 0) (hs : M.steps ≠ 0)
    (hd : M.grid 1 - M.grid 0 ≠ 0) :
    (M.seqBackwardPassUpwind ug = .ok ((List.range (M.blocks + 1)).map fun k =>
      (upwindStep M.f M.L M.grid ug (M.grid 1 - M.grid 0) (M.T / M.blocks / M.steps))^[(M.blocks - k) * M.steps]
        fun i => M.LT (M.grid i))) ∧
    (M.seqBackwardPassSymfd ug = .ok ((List.range (M.blocks + 1)).map fun k =>
      (symStep M.f M.L M.grid ug (M.grid 1 - M.grid 0) (M.T / M.blocks / M.steps))^[(M.blocks - k) * M.steps]
        fun i => M.LT (M.grid i))) := by
  have h : ¬ (M.blocks = 0 ∨ M.steps = 0) := by tauto
  unfold HJB.seqBackwardPassUpwind HJB.seqBackwardPassSymfd HJB.dt
  simp only [if_neg h]
  constructor
  · rw [← fdLoop_eq]
    change (if M.grid 1 - M.grid 0 = 0 then _ else _ : Py _) = _
    rw [if_neg hd]
    rfl
  · rw [← fdLoop_eq]
    change (if M.grid 1 - M.grid 0 = 0 then _ else _ : Py _) = _
    rw [if_neg hd]
    rfl

theorem fdPassTF_eq (M : HJB (n + 2) K) (ug : Fin m → K) :
    seqBwPassUpwindTF M ug = M.seqBackwardPassUpwind ug ∧ seqBwPassSymfdTF M ug = M.seqBackwardPassSymfd ug := by
  by_cases h : M.blocks = 0 ∨ M.steps = 0
  · unfold seqBwPassUpwindTF seqBwPassSymfdTF HJB.seqBackwardPassUpwind HJB.seqBackwardPassSymfd HJB.dt
    simp only [if_pos h]
    exact ⟨rfl, rfl⟩
  · by_cases hd : M.grid 1 - M.grid 0 = 0
    · unfold seqBwPassUpwindTF seqBwPassSymfdTF HJB.seqBackwardPassUpwind HJB.seqBackwardPassSymfd HJB.dt
      simp only [if_neg h, if_pos hd]
      exact ⟨rfl, rfl⟩
    · have hb : M.blocks ≠ 0 := by tauto
      have hs : M.steps ≠ 0 := by tauto
      obtain ⟨h1, h2⟩ := fdPass_eq M ug hb hs hd
      rw [h1, h2]
      unfold seqBwPassUpwindTF seqBwPassSymfdTF HJB.dt
      simp only [if_neg h]
      constructor
      · change (if M.grid 1 - M.grid 0 = 0 then _ else _ : Py _) = _
        rw [if_neg hd]
        exact scan_stride _ _ _ hs _
      · change (if M.grid 1 - M.grid 0 = 0 then _ else _ : Py _) = _
        rw [if_neg hd, symStepTF_eq]
        exact scan_stride _ _ _ hs _

/-- Adding a constant does not change differences. -/
theorem dv_const (dx c : K) (V : Fin (n + 2) → K) :
    dvSym dx (fun i => V i + c) = dvSym dx V ∧ dvFwd dx (fun i => V i + c) = dvFwd dx V ∧
      dvBwd dx (fun i => V i + c) = dvBwd dx V := by
  refine ⟨?_, ?_, ?_⟩ <;> funext i
  · unfold dvSym; simp only [add_sub_add_right_eq_sub]
  · unfold dvFwd; simp only [add_sub_add_right_eq_sub]
  · unfold dvBwd; simp only [add_sub_add_right_eq_sub]

theorem upwindStep_const (f L : K → K → K) (grid : Fin (n + 2) → K) (ug : Fin m → K) (dx dt c : K)
    (V : Fin (n + 2) → K) :
    upwindStep f L grid ug dx dt (fun i => V i + c) = fun i => upwindStep f L grid ug dx dt V i + c := by
  funext i
  unfold upwindStep
  simp only [(dv_const dx c V).2.1, (dv_const dx c V).2.2]
  ring

theorem symStep_const (f L : K → K → K) (grid : Fin (n + 2) → K) (ug : Fin m → K) (dx dt c : K)
    (V : Fin (n + 2) → K) :
    symStep f L grid ug dx dt (fun i => V i + c) = fun i => symStep f L grid ug dx dt V i + c := by
  funext i
  unfold symStep
  simp only [(dv_const dx c V).1]
  ring

variable [IsStrictOrderedRing K]

/-- The grid point towards which the drift `b` points. -/
def downstream (b : K) (i : Fin (n + 2)) : Fin (n + 2) := if 0 < b then nxt i else prv i

theorem min1_mul (v : Fin m → K) (c a : K) (hc : 0 ≤ c) : a + min1 v * c = min1 fun u => a + v u * c := by
  symm
  apply min1_eq
  · intro u
    have := mul_le_mul_of_nonneg_right (min1_le v u) hc
    linarith
  · obtain ⟨u, hu⟩ := min1_attained v
    exact ⟨u, by rw [hu]⟩

/-- Under inward drift the upwind step is the dynamic programming operator of a Markov chain. -/
theorem upwindStep_bellman (f L : K → K → K) (grid : Fin (n + 2) → K) (ug : Fin m → K) (dx dt : K) (hdt : 0 ≤ dt)
    (h0 : ∀ u, 0 ≤ f (grid 0) (ug u)) (h1 : ∀ u, f (grid (Fin.last (n + 1))) (ug u) ≤ 0)
    (V : Fin (n + 2) → K) (i : Fin (n + 2)) :
    upwindStep f L grid ug dx dt V i = min1 fun u =>
      L (grid i) (ug u) * dt + (1 - |f (grid i) (ug u)| * dt / dx) * V i +
        |f (grid i) (ug u)| * dt / dx * V (downstream (f (grid i) (ug u)) i) := by
  unfold upwindStep
  dsimp only
  rw [min1_mul _ _ _ hdt]
  congr 1
  funext u
  have hb0 : i = 0 → 0 ≤ f (grid i) (ug u) := by rintro rfl; exact h0 u
  have hb1 : i = Fin.last (n + 1) → f (grid i) (ug u) ≤ 0 := by rintro rfl; exact h1 u
  generalize f (grid i) (ug u) = b at *
  generalize L (grid i) (ug u) = l at *
  unfold downstream jsign dvFwd dvBwd
  rcases lt_trichotomy b 0 with hb | hb | hb
  · have hi : i ≠ 0 := fun h => absurd (hb0 h) (not_le.2 hb)
    rw [if_pos hb, if_neg (not_lt.2 hb.le), abs_of_neg hb, if_neg hi]
    simp only [if_neg hi]
    split <;> ring
  · subst hb
    simp
    ring
  · have hi : i ≠ Fin.last (n + 1) := fun h => absurd (hb1 h) (not_le.2 hb)
    rw [if_neg (not_lt.2 hb.le), if_pos hb, if_pos hb, abs_of_pos hb]
    by_cases hi0 : i = 0
    · subst hi0
      have : nxt (0 : Fin (n + 2)) = 1 := by
        apply Fin.ext; simp [nxt]
      rw [if_pos rfl, this]
      simp only [if_true]
      ring
    · simp only [if_neg hi0, if_neg hi]
      ring

theorem upwindStep_mono (f L : K → K → K) (grid : Fin (n + 2) → K) (ug : Fin m → K) (dx dt : K) (hdx : 0 < dx)
    (hdt : 0 ≤ dt) (hcfl : ∀ i u, dt * |f (grid i) (ug u)| ≤ dx)
    (h0 : ∀ u, 0 ≤ f (grid 0) (ug u)) (h1 : ∀ u, f (grid (Fin.last (n + 1))) (ug u) ≤ 0)
    (V W : Fin (n + 2) → K) (h : ∀ i, V i ≤ W i) (i : Fin (n + 2)) :
    upwindStep f L grid ug dx dt V i ≤ upwindStep f L grid ug dx dt W i := by
  rw [upwindStep_bellman f L grid ug dx dt hdt h0 h1, upwindStep_bellman f L grid ug dx dt hdt h0 h1]
  apply le_min1
  intro u
  refine le_trans (min1_le _ u) ?_
  have hc : |f (grid i) (ug u)| * dt / dx ≤ 1 := by
    rw [div_le_one hdx]; linarith [hcfl i u, mul_comm dt |f (grid i) (ug u)|]
  have hp : 0 ≤ |f (grid i) (ug u)| * dt / dx := div_nonneg (mul_nonneg (abs_nonneg _) hdt) hdx.le
  have e1 := mul_le_mul_of_nonneg_left (h i) (sub_nonneg.2 hc)
  have e2 := mul_le_mul_of_nonneg_left (h (downstream (f (grid i) (ug u)) i)) hp
  linarith

end Fd

end Verif
