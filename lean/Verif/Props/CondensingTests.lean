import Verif.Proof.CondensingTests
import Verif.Props.Condensing
import Verif.Props.LQTTests

/-!
# C117: the unit tests of partial condensing (`test_condensing_np.py`)
-/

namespace Verif

open Matrix

variable {n m : ℕ}

/-- **C117** (no failed assertion): for problems with symmetric weights, without `Z`, `s` and `M` and with one output
dimension, the tests can raise an exception but never fail an assertion, whatever the block length and the tolerance. -/
theorem C117_never_fails (P : LQT n m ℝ) (hP : P.Sym) (hpl : ∀ s ∈ P.stages, s.Plain) (hd : P.SameDim) (Nc : ℕ)
    (x0 : Fin n → ℝ) (tol : ℝ) (ht : 0 < tol) (Q : Prop) :
    (condTestLQR P Nc x0 tol = .ok Q → Q) ∧ (condTestRnd P Nc x0 tol = .ok Q → Q) := by
  constructor
  · intro h
    unfold condTestLQR at h
    obtain ⟨⟨cP, cbs⟩, h1, h⟩ := bind_ok.1 h
    obtain ⟨b1, h2, h⟩ := bind_ok.1 h
    obtain ⟨p1, h3, h⟩ := bind_ok.1 h
    obtain ⟨b2, h4, h⟩ := bind_ok.1 h
    obtain ⟨⟨cus, cxs⟩, h5, h⟩ := bind_ok.1 h
    obtain ⟨p2, h6, h⟩ := bind_ok.1 h
    obtain ⟨e1, h7, h⟩ := bind_ok.1 h
    obtain ⟨e2, h8, hQ⟩ := bind_ok.1 h
    have hs := C32_same P hP hpl hd cP cbs h1 b2 h4 b1 h2 x0 cus cxs h5
    obtain rfl : p1 = p2 := Except.ok.inj (h3.symm.trans (hs.symm.trans h6))
    rw [← Except.ok.inj hQ]
    exact ⟨errV_same_tol ht h7, errV_same_tol ht h8⟩
  · intro h
    unfold condTestRnd at h
    obtain ⟨b1, h2, h⟩ := bind_ok.1 h
    obtain ⟨p1, h3, h⟩ := bind_ok.1 h
    obtain ⟨⟨cP, cbs⟩, h1, h⟩ := bind_ok.1 h
    obtain ⟨b2, h4, h⟩ := bind_ok.1 h
    obtain ⟨⟨cus, cxs⟩, h5, h⟩ := bind_ok.1 h
    obtain ⟨p2, h6, h⟩ := bind_ok.1 h
    obtain ⟨e1, h7, h⟩ := bind_ok.1 h
    obtain ⟨e2, h8, hQ⟩ := bind_ok.1 h
    have hs := C32_same P hP hpl hd cP cbs h1 b2 h4 b1 h2 x0 cus cxs h5
    obtain rfl : p1 = p2 := Except.ok.inj (h3.symm.trans (hs.symm.trans h6))
    rw [← Except.ok.inj hQ]
    exact ⟨errV_same_tol ht h7, errV_same_tol ht h8⟩

/-- **C117** (when they pass): on convex problems of this kind the tests pass exactly if condensing completes. -/
theorem C117_convex (P : LQT n m ℝ) (hP : P.Convex) (hpl : ∀ s ∈ P.stages, s.Plain) (hd : P.SameDim) (Nc : ℕ)
    (x0 : Fin n → ℝ) (tol : ℝ) (ht : 0 < tol) :
    (Passes (condTestLQR P Nc x0 tol) ↔ ∃ r, P.condense Nc = .ok r) ∧
    (Passes (condTestRnd P Nc x0 tol) ↔ ∃ r, P.condense Nc = .ok r) := by
  have key : (∃ r, P.condense Nc = .ok r) →
      Passes (condTestLQR P Nc x0 tol) ∧ Passes (condTestRnd P Nc x0 tol) := by
    rintro ⟨⟨cP, cbs⟩, h⟩
    have hT : P.stages ≠ [] := by
      intro h0
      rw [(C31_errors P).1 h0] at h
      cases h
    obtain ⟨-, cr, hcr⟩ := C32_convex P hP.toSym hP.2 hpl hd cP cbs h
    obtain ⟨r, hr, -⟩ := C19_seq_psd P hP
    obtain ⟨cus, cxs, us, xs, J, hf, hcv, hl, hlx, -⟩ := C32_optimal P hP.toSym hpl hd cP cbs h cr hcr x0
    have hs := C32_same P hP.toSym hpl hd cP cbs h cr hcr r hr x0 cus cxs hf
    rw [hcv] at hs
    have hlen : 0 < P.stages.length := List.length_pos_of_ne_nil hT
    have hu : us ≠ [] := by rintro rfl; simp at hl; omega
    have hx : xs ≠ [] := by rintro rfl; simp at hlx
    exact ⟨⟨_, bind_ok.2 ⟨_, h, bind_ok.2 ⟨_, hr, bind_ok.2 ⟨_, hs.symm, bind_ok.2 ⟨_, hcr, bind_ok.2 ⟨_, hf,
        bind_ok.2 ⟨_, hcv, bind_ok.2 ⟨_, errV_self hu, bind_ok.2 ⟨_, errV_self hx, rfl⟩⟩⟩⟩⟩⟩⟩⟩, ht, ht⟩,
      ⟨_, bind_ok.2 ⟨_, hr, bind_ok.2 ⟨_, hs.symm, bind_ok.2 ⟨_, h, bind_ok.2 ⟨_, hcr, bind_ok.2 ⟨_, hf,
        bind_ok.2 ⟨_, hcv, bind_ok.2 ⟨_, errV_self hu, bind_ok.2 ⟨_, errV_self hx, rfl⟩⟩⟩⟩⟩⟩⟩⟩, ht, ht⟩⟩
  refine ⟨⟨?_, fun h => (key h).1⟩, ⟨?_, fun h => (key h).2⟩⟩
  · rintro ⟨Q, h, -⟩
    obtain ⟨c, h1, -⟩ := bind_ok.1 h
    exact ⟨c, h1⟩
  · rintro ⟨Q, h, -⟩
    obtain ⟨b1, -, h⟩ := bind_ok.1 h
    obtain ⟨p1, -, h⟩ := bind_ok.1 h
    obtain ⟨c, h1, -⟩ := bind_ok.1 h
    exact ⟨c, h1⟩

/-- **C117** (without expansion): if condensing a convex problem of this kind completes, `test_condensing_2` passes, and
`test_condensing_1` passes if the block length divides the number of steps. -/
theorem C117_blocks (P : LQT n m ℝ) (hP : P.Convex) (hpl : ∀ s ∈ P.stages, s.Plain) (hd : P.SameDim) (Nc : ℕ)
    (x0 : Fin n → ℝ) (tol : ℝ) (ht : 0 < tol) (hc : ∃ r, P.condense Nc = .ok r) :
    Passes (condTest2 P Nc x0 tol) ∧ (Nc ∣ P.stages.length → Passes (condTest1 P Nc x0 tol)) := by
  obtain ⟨⟨cP, cbs⟩, h⟩ := hc
  obtain ⟨hcC, cr, hcr⟩ := C32_convex P hP.toSym hP.2 hpl hd cP cbs h
  obtain ⟨r, hr, -⟩ := C19_seq_psd P hP
  obtain ⟨κ, k, hN, hT, hl, hlk, -, -, hmain⟩ := cond_main hP.toSym hpl hd h
  obtain ⟨cus, hcl, hf, -⟩ := seq_strict_min hcC.toSym hcr x0
  have hs := C32_same P hP.toSym hpl hd cP cbs h cr hcr r hr x0 _ _ hf
  obtain ⟨-, hx, hcv⟩ := hmain x0 cus hcl
  rw [hcv] at hs
  set us := (splitControls Nc cus).take P.stages.length with hus
  have hul : us.length = P.stages.length := by
    rw [hus, List.length_take, split_length, hcl]; omega
  have hcat : concatV us = (concatV cus).take (P.stages.length * m) := by
    rw [hus, concatV_take, concatV_split]
  have hxl : (x0 :: lqtRun P.stages x0 us).length = P.stages.length + 1 := by
    rw [List.length_cons, lqtRun_length hul.le, hul]
  have hcxl : (x0 :: lqtRun cP.stages x0 cus).length = cP.stages.length + 1 := by
    rw [List.length_cons, lqtRun_length hcl.le, hcl]
  generalize x0 :: lqtRun P.stages x0 us = xs at *
  generalize x0 :: lqtRun cP.stages x0 cus = cxs at *
  have hc0 : 0 < cP.stages.length := by
    by_contra h0
    have : cP.stages.length = 0 := by omega
    rw [this] at hlk
    omega
  constructor
  · have e1 : normL (concatV us) ((concatV cus).take (concatV us).length) = .ok 0 := by
      rw [concatV_length us, hul, ← hcat, normL_self]
    have e2 : everyNth Nc xs.dropLast = .ok cxs.dropLast := by
      refine everyNth_eq hN (by simp [hxl, hcxl, hl]) fun j hj => ?_
      have hj : j < cP.stages.length := by simpa [hcxl] using hj
      have hjT : Nc * j < P.stages.length := by
        have h1 : (j + 1) * Nc ≤ P.stages.length + Nc - 1 := (Nat.le_div_iff_mul_le hN).1 (by omega)
        rw [Nat.add_mul, Nat.one_mul, Nat.mul_comm] at h1
        omega
      have h2 := hx j hj.le
      rw [min_eq_left hjT.le] at h2
      rw [List.getElem?_dropLast, List.getElem?_dropLast, if_pos (by omega), if_pos (by omega), h2]
    have hcd : cxs.dropLast ≠ [] := by
      intro h0
      have := congrArg List.length h0
      simp [hcxl] at this
      rw [this] at hc0
      exact absurd hc0 (by simp)
    have hlast : cxs.getLast? = xs.getLast? := by
      have h2 := hx cP.stages.length le_rfl
      rw [min_eq_right (by omega)] at h2
      rw [List.getLast?_eq_getElem?, List.getLast?_eq_getElem?, hxl, hcxl]
      exact h2
    obtain ⟨y, hy⟩ : ∃ y, xs.getLast? = some y := by
      cases hxs : xs with
      | nil => rw [hxs] at hxl; simp at hxl
      | cons a l => exact ⟨_, List.getLast?_eq_getLast_of_ne_nil (by simp)⟩
    refine ⟨(0 : ℝ) < tol ∧ (0 : ℝ) < tol ∧ normDiff y y < tol, bind_ok.2 ⟨_, h, bind_ok.2 ⟨_, hr, bind_ok.2 ⟨_, hs.symm,
      bind_ok.2 ⟨_, hcr, bind_ok.2 ⟨_, hf, bind_ok.2 ⟨_, e1, bind_ok.2 ⟨_, e2, bind_ok.2 ⟨_, errV_self hcd, ?_⟩⟩⟩⟩⟩⟩⟩⟩,
      ht, ht, by rw [normDiff_self]; exact ht⟩
    simp only [hlast, hy]
    rfl
  · rintro ⟨t, htN⟩
    have hct : cP.stages.length = t := by
      rw [hl, htN]
      have : Nc * t + Nc - 1 = Nc - 1 + Nc * t := by omega
      rw [this, Nat.add_mul_div_left _ _ hN, Nat.div_eq_of_lt (by omega), Nat.zero_add]
    have e1 : normL (concatV us) (concatV cus) = .ok 0 := by
      rw [hcat, List.take_of_length_le, normL_self]
      rw [concatV_length, hcl, hct, htN, ← Nat.mul_assoc, Nat.mul_comm t Nc]
    have e2 : everyNth Nc xs = .ok cxs := by
      refine everyNth_eq hN ?_ fun j hj => ?_
      · rw [hxl, hcxl, hct, htN]
        have : Nc * t + 1 + Nc - 1 = Nc * (t + 1) := by rw [Nat.mul_add]; omega
        rw [this, Nat.mul_div_cancel_left _ hN]
      · have hj : j ≤ t := by omega
        have h2 := hx j (by omega)
        rwa [min_eq_left (by rw [htN]; exact Nat.mul_le_mul_left _ hj)] at h2
    have hcd : cxs ≠ [] := by
      rintro rfl
      simp at hcxl
    exact ⟨_, bind_ok.2 ⟨_, h, bind_ok.2 ⟨_, hr, bind_ok.2 ⟨_, hs.symm, bind_ok.2 ⟨_, hcr, bind_ok.2 ⟨_, hf,
      bind_ok.2 ⟨_, e1, bind_ok.2 ⟨_, e2, bind_ok.2 ⟨_, errV_self hcd, rfl⟩⟩⟩⟩⟩⟩⟩⟩, ht, ht⟩

/-- **C117** (regulator): `test_convertXY_1` and `test_condensing_2` pass on convex regulators with positive definite state
weight for every positive horizon, block length and tolerance and every initial state, and `test_condensing_1` passes if
the block length divides the horizon. -/
theorem C117_regulator (R : LQR n m ℝ) (hR : R.Convex) (hX : IsPD R.X) (T : ℕ) (hT : 0 < T) (Nc : ℕ) (hN : 0 < Nc)
    (x0 : Fin n → ℝ) (tol : ℝ) (ht : 0 < tol) : Passes (condTestLQR (R.toLQT T) Nc x0 tol) ∧
    Passes (condTest2 (R.toLQT T) Nc x0 tol) ∧ (Nc ∣ T → Passes (condTest1 (R.toLQT T) Nc x0 tol)) := by
  have hst : ∀ s ∈ (R.toLQT T).stages, s = R.stage := fun s hs => List.eq_of_mem_replicate hs
  have hlen : (R.toLQT T).stages.length = T := by simp [LQR.toLQT]
  have hpl : ∀ s ∈ (R.toLQT T).stages, s.Plain := by
    intro s hs; rw [hst s hs]; exact ⟨rfl, rfl, rfl⟩
  have hd : (R.toLQT T).SameDim := by
    intro s hs t ht; rw [hst s hs, hst t ht]
  have hc : ∃ r, (R.toLQT T).condense Nc = .ok r := by
    refine C32_completes _ (lqr_convex hR T) hpl hd ?_ hN ?_
    · intro h
      rw [h] at hlen
      simp at hlen; omega
    · intro k s hs
      rw [hst s (List.mem_of_getElem? hs)]
      have e : IsPD ((1 : Matrix (Fin n) (Fin n) ℝ)ᵀ * R.X * (1 : Matrix (Fin n) (Fin n) ℝ)) := by
        rw [transpose_one, Matrix.one_mul, Matrix.mul_one]
        exact hX
      exact e
  obtain ⟨h2, h1⟩ := C117_blocks _ (lqr_convex hR T) hpl hd Nc x0 tol ht hc
  exact ⟨((C117_convex _ (lqr_convex hR T) hpl hd Nc x0 tol ht).1).2 hc, h2, fun h => h1 (by rw [hlen]; exact h)⟩

/-- The data of the three tests. -/
example : Passes (condTestLQR (testLQR1.toLQT 9) 4 ![1, 1] (1 / 10 ^ 10)) ∧
    Passes (condTest1 (testLQR1.toLQT 6) 3 ![1, 1] (1 / 10 ^ 10)) ∧
    Passes (condTest2 (testLQR1.toLQT 6) 4 ![1, 1] (1 / 10 ^ 10)) := by
  have key : IsPD (!![1 / 2, 0; 0, 1 / 10] : Matrix (Fin 2) (Fin 2) ℝ) := by
    intro x hx
    have h : x 0 ≠ 0 ∨ x 1 ≠ 0 := by
      by_contra hc
      push Not at hc
      exact hx (by ext i; fin_cases i; exacts [hc.1, hc.2])
    simp [dotProduct, mulVec, Fin.sum_univ_succ]
    rcases h with h | h
    · nlinarith [mul_self_pos.2 h, mul_self_nonneg (x 1)]
    · nlinarith [mul_self_pos.2 h, mul_self_nonneg (x 0)]
  have h := fun T (hT : 0 < T) Nc (hN : 0 < Nc) => C117_regulator testLQR1 C115_data.1 key T hT Nc hN ![1, 1] (1 / 10 ^ 10)
    (by norm_num)
  exact ⟨(h 9 (by norm_num) 4 (by norm_num)).1, (h 6 (by norm_num) 3 (by norm_num)).2.2 (by norm_num),
    (h 6 (by norm_num) 4 (by norm_num)).2.1⟩

section Random

variable (T : ℕ) (d : Fin T → RndStage) (HT : Matrix (Fin 3) (Fin 4) ℝ) (rT : Fin 3 → ℝ) (XT : Matrix (Fin 3) (Fin 6) ℝ)

/-- **C117** (random problems): whatever the draws, the problem of `setupRndLQT` meets the hypotheses of `C117_convex`;
other than in `test_lqt_np.py` it is always convex. -/
theorem C117_rnd : (condRndLQT T d HT rT XT).Convex ∧ (∀ s ∈ (condRndLQT T d HT rT XT).stages, s.Plain) ∧
    (condRndLQT T d HT rT XT).SameDim ∧ (condRndLQT T d HT rT XT).stages.length = T := by
  refine ⟨⟨fun s hs => ?_, gram_symm XT, gram_nonneg XT⟩, fun s hs => ?_, fun s hs t ht => ?_, by simp [condRndLQT]⟩
  · obtain ⟨t, -, rfl⟩ := List.mem_map.1 hs
    have hU : IsPD (t.U * t.Uᵀ + 1) := by
      intro x hx
      rw [add_mulVec, one_mulVec, dotProduct_add]
      have h1 := gram_nonneg t.U x
      have h2 : 0 < x ⬝ᵥ x := lt_of_le_of_ne (Finset.sum_nonneg fun i _ => mul_self_nonneg _)
        fun h => hx (dotProduct_self_eq_zero.1 h.symm)
      linarith
    refine ⟨⟨gram_symm t.X, ?_⟩, by simp, hU, ?_⟩
    · show (t.U * t.Uᵀ + 1)ᵀ = t.U * t.Uᵀ + 1
      rw [transpose_add, gram_symm, transpose_one]
    · have key : ∀ (y : Fin 3 → ℝ) (z : Fin 2 → ℝ), 0 ≤ y ⬝ᵥ (t.X * t.Xᵀ) *ᵥ y +
          2 * (y ⬝ᵥ (0 : Matrix (Fin 3) (Fin 2) ℝ) *ᵥ z) + z ⬝ᵥ (t.U * t.Uᵀ + 1) *ᵥ z := by
        intro y z
        rw [zero_mulVec, dotProduct_zero, mul_zero, add_zero]
        exact add_nonneg (gram_nonneg t.X y) (hU.nonneg z)
      exact key
  · obtain ⟨t, -, rfl⟩ := List.mem_map.1 hs
    exact ⟨rfl, rfl, rfl⟩
  · obtain ⟨a, -, rfl⟩ := List.mem_map.1 hs
    obtain ⟨b, -, rfl⟩ := List.mem_map.1 ht
    rfl

/-- **C117** (a block of one step): three outputs do not determine four states, so that condensing raises `LinAlgError`
for all draws if the last block has a single step (`T = Nc k + 1`), and the tests do not pass. -/
theorem C117_rank (Nc k : ℕ) (hN : 0 < Nc) (hT : T = Nc * k + 1) (x0 : Fin 4 → ℝ) (tol : ℝ) :
    (condRndLQT T d HT rT XT).condense Nc = .error .linAlgError ∧
    ¬ Passes (condTestRnd (condRndLQT T d HT rT XT) Nc x0 tol) := by
  obtain ⟨hC, hpl, hd, hl⟩ := C117_rnd T d HT rT XT
  have hne : (condRndLQT T d HT rT XT).stages ≠ [] := by
    intro h
    rw [h] at hl
    simp at hl; omega
  have hc : (condRndLQT T d HT rT XT).condense Nc = .error .linAlgError := by
    refine ((C31_completion _ hC.toSym hpl hd hne hN).resolve_left fun h => ?_).2
    have hk : Nc * k < (condRndLQT T d HT rT XT).stages.length := by omega
    have hdrop : ((condRndLQT T d HT rT XT).stages.drop (Nc * k)).take Nc = [(condRndLQT T d HT rT XT).stages[Nc * k]] := by
      rw [List.drop_eq_getElem_cons hk, List.drop_eq_nil_of_le (by omega)]
      exact List.take_of_length_le hN
    have hmem := List.getElem_mem hk
    obtain ⟨t, -, hs⟩ := List.mem_map.1 hmem
    obtain ⟨x, hx, hHx⟩ := exists_ker t.H
    have h1 := h.1 k hk x [0] (by rw [hdrop]; rfl) (Or.inl hx)
    rw [hdrop, ← hs] at h1
    simp only [List.map_cons, List.map_nil, lqtTotal] at h1
    rw [plain_homog_cost ⟨rfl, rfl, rfl⟩] at h1
    have e : (t.stage.Hᵀ * t.stage.X * t.stage.H : Matrix (Fin 4) (Fin 4) ℝ) *ᵥ x = 0 := by
      have : (t.Hᵀ * (t.X * t.Xᵀ) * t.H) *ᵥ x = 0 := by rw [← mulVec_mulVec, hHx, mulVec_zero]
      exact this
    simp only [e] at h1
    simp at h1
  refine ⟨hc, ?_⟩
  rintro ⟨Q, h, -⟩
  obtain ⟨b1, -, h⟩ := bind_ok.1 h
  obtain ⟨p1, -, h⟩ := bind_ok.1 h
  obtain ⟨c, h1, -⟩ := bind_ok.1 h
  rw [hc] at h1
  cases h1

end Random

/-- Eleven steps as in `test_convertXY_2`, with blocks of five instead of three. -/
example (d : Fin 11 → RndStage) (HT rT XT x0) : ¬ Passes (condTestRnd (condRndLQT 11 d HT rT XT) 5 x0 (1 / 10 ^ 8)) :=
  (C117_rank 11 d HT rT XT 5 2 (by norm_num) (by norm_num) x0 _).2

/-- Draws that observe the first three states and move the fourth one to the first place. -/
def goodDraw : RndStage :=
  ⟨0, !![0, 0, 0, 1; 0, 0, 0, 0; 0, 0, 0, 0; 0, 0, 0, 0], 0, 0, 0, 0, !![1, 0, 0, 0; 0, 1, 0, 0; 0, 0, 1, 0], 0,
    !![1, 0, 0, 0, 0, 0; 0, 1, 0, 0, 0, 0; 0, 0, 1, 0, 0, 0], 0⟩

theorem goodDraw_form (x : Fin 4 → ℝ) : x ⬝ᵥ (goodDraw.Hᵀ * (goodDraw.X * goodDraw.Xᵀ) * goodDraw.H) *ᵥ x =
    x 0 ^ 2 + x 1 ^ 2 + x 2 ^ 2 := by
  have h1 : goodDraw.X * goodDraw.Xᵀ = 1 := by
    ext i j
    fin_cases i <;> fin_cases j <;> simp [goodDraw, Matrix.mul_apply, Fin.sum_univ_succ]
  rw [h1, Matrix.mul_one, ← mulVec_mulVec, dotProduct_mulVec, vecMul_transpose]
  simp [goodDraw, dotProduct, mulVec, Fin.sum_univ_succ]
  ring

/-- **C117** (lucky draws): there are draws for which the tests with three steps and blocks of three or seven pass. -/
theorem C117_lucky : ∃ d : Fin 3 → RndStage, ∀ HT rT XT x0,
    Passes (condTestRnd (condRndLQT 3 d HT rT XT) 3 x0 (1 / 10 ^ 8)) ∧
    Passes (condTestRnd (condRndLQT 3 d HT rT XT) 7 x0 (1 / 10 ^ 8)) := by
  refine ⟨fun _ => goodDraw, fun HT rT XT x0 => ?_⟩
  obtain ⟨hC, hpl, hd, hl⟩ := C117_rnd 3 (fun _ => goodDraw) HT rT XT
  have key : ∀ N, 3 ≤ N → Passes (condTestRnd (condRndLQT 3 (fun _ => goodDraw) HT rT XT) N x0 (1 / 10 ^ 8)) := by
    intro N hN
    rw [(C117_convex _ hC hpl hd N x0 _ (by norm_num)).2]
    have hne : (condRndLQT 3 (fun _ => goodDraw) HT rT XT).stages ≠ [] := by
      intro h; rw [h] at hl; simp at hl
    refine ((C31_completion _ hC.toSym hpl hd hne (by omega)).resolve_right fun h => h.1 ?_).2
    intro k hk x us hlen hnz
    rw [hl] at hk
    obtain rfl : k = 0 := by
      by_contra hk0
      have : N * 1 ≤ N * k := Nat.mul_le_mul_left N (Nat.one_le_iff_ne_zero.2 hk0)
      omega
    rw [Nat.mul_zero, List.drop_zero, List.take_of_length_le (by omega)] at hlen ⊢
    by_cases hu : ∃ u ∈ us, u ≠ 0
    · exact (homog_pos x hlen fun s hs => ⟨hpl s hs, hC.1 s hs⟩).2 hu
    · have hx : x ≠ 0 := hnz.resolve_right hu
      push Not at hu
      rw [hl] at hlen
      obtain ⟨u0, u1, u2, rfl⟩ : ∃ u0 u1 u2, us = [u0, u1, u2] := by
        match us, hlen with
        | [a, b, c], _ => exact ⟨a, b, c, rfl⟩
      obtain rfl : u0 = 0 := hu u0 (by simp)
      obtain rfl : u1 = 0 := hu u1 (by simp)
      obtain rfl : u2 = 0 := hu u2 (by simp)
      let g : LStage 4 2 ℝ := { goodDraw.stage with Z := 1, s := 0, M := 0 }
      have hg : (condRndLQT 3 (fun _ => goodDraw) HT rT XT).stages = [g, g, g] := by
        simp [condRndLQT, g, List.ofFn_succ]
      have hgm : ∀ s ∈ [g], s.Plain ∧ s.Convex := by
        intro s hs
        have hs : s ∈ (condRndLQT 3 (fun _ => goodDraw) HT rT XT).stages := by
          rw [hg]; simp only [List.mem_cons, List.not_mem_nil, or_false] at hs ⊢; exact Or.inl hs
        exact ⟨hpl s hs, hC.1 s hs⟩
      have hcost : ∀ y : Fin 4 → ℝ, g.homog.cost y 0 = (1 / 2) * (y 0 ^ 2 + y 1 ^ 2 + y 2 ^ 2) := by
        intro y
        rw [plain_homog_cost (s := g) ⟨rfl, rfl, rfl⟩]
        have := goodDraw_form y
        rw [zero_dotProduct, add_zero]
        exact congrArg _ this
      have hnext : (g.homog.next x 0) 0 = x 3 := by
        have : g.homog.next x 0 = goodDraw.F *ᵥ x + 0 + goodDraw.L *ᵥ 0 := rfl
        rw [this]
        simp [goodDraw, dotProduct, Fin.sum_univ_succ]
      have h2 := (homog_pos (ss := [g]) (us := [0]) (g.homog.next (g.homog.next x 0) 0) rfl hgm).1
      rw [hg]
      have e : lqtTotal (fun _ => 0) ([g, g, g].map LStage.homog) x [0, 0, 0] = g.homog.cost x 0 +
          (g.homog.cost (g.homog.next x 0) 0 +
            lqtTotal (fun _ => 0) ([g].map LStage.homog) (g.homog.next (g.homog.next x 0) 0) [0]) := rfl
      rw [e, hcost, hcost, hnext]
      have hpos : 0 < x 0 ^ 2 + x 1 ^ 2 + x 2 ^ 2 + x 3 ^ 2 := by
        by_contra hc
        refine hx ?_
        have a0 := sq_nonneg (x 0)
        have a1 := sq_nonneg (x 1)
        have a2 := sq_nonneg (x 2)
        have a3 := sq_nonneg (x 3)
        ext i
        fin_cases i
        · exact pow_eq_zero_iff (two_ne_zero) |>.1 (by linarith : x 0 ^ 2 = 0)
        · exact pow_eq_zero_iff (two_ne_zero) |>.1 (by linarith : x 1 ^ 2 = 0)
        · exact pow_eq_zero_iff (two_ne_zero) |>.1 (by linarith : x 2 ^ 2 = 0)
        · exact pow_eq_zero_iff (two_ne_zero) |>.1 (by linarith : x 3 ^ 2 = 0)
      have b1 := sq_nonneg ((g.homog.next x 0) 1)
      have b2 := sq_nonneg ((g.homog.next x 0) 2)
      linarith
  exact ⟨key 3 le_rfl, key 7 (by norm_num)⟩

end Verif
