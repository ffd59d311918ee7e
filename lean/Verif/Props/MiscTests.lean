import Verif.Proof.MiscTests
import Verif.Props.NLQT
import Verif.Props.FSCTests

/-!
# C116: the unit tests of the discretisation (`test_disc.py`) and of the linearisation and simulation of the nonlinear
tracker (`test_nlqt_np.py`)
-/

namespace Verif

open Matrix

/-- **C116** (discretisation): both tests pass for every noise density and every step length that is not negative. -/
theorem C116_disc (Qc dt : ℝ) (hdt : 0 ≤ dt) : Passes (discTest Qc dt) ∧ Passes (discTestU Qc dt) := by
  have hq : (NoiseArg.scalar Qc : NoiseArg 1).expand = .ok !![Qc] := by
    refine congrArg Except.ok (?_ : (fun _ _ => Qc) = !![Qc])
    ext i j; fin_cases i; fin_cases j; rfl
  have h1 := ltiDisc_eq discTestF discTestL (.scalar Qc) !![Qc] hq dt
  have h2 := ltiDiscU_eq discTestF discTestL discTestG (.scalar Qc) !![Qc] hq dt
  rw [discTest_Q Qc dt hdt, (discTest_AB dt hdt).1] at h1
  rw [discTest_Q Qc dt hdt, (discTest_AB dt hdt).1, (discTest_AB dt hdt).2] at h2
  refine ⟨⟨_, bind_ok.2 ⟨_, h1, rfl⟩, ?_⟩, ⟨_, bind_ok.2 ⟨_, h2, rfl⟩, ?_⟩⟩
  · simp only [normDiffM_self, testTol_pos, and_self]
  · simp only [normDiffM_self, testTol_pos, and_self]

/-- The values of the two tests. -/
example : Passes (discTest (1 / 10) 2) ∧ Passes (discTestU (1 / 10) (1 / 2)) :=
  ⟨(C116_disc _ _ (by norm_num)).1, (C116_disc _ _ (by norm_num)).2⟩

variable {n m : ℕ}

/-- **C116** (linearisation): `test_linearize` passes exactly if there are at least two controls and neither the stages
nor the states are fewer than the controls. The Jacobians of the model are arbitrary, so the test does not check them. -/
theorem C116_linearize (M : NModel n m ℝ) (P : LQT n m ℝ) (us : List (Fin m → ℝ)) (xs : List (Fin n → ℝ)) :
    Passes (nlqtTestLin M P us xs) ↔ 2 ≤ us.length ∧ us.length ≤ P.stages.length ∧ us.length ≤ xs.length := by
  constructor
  · rintro ⟨Q, h, -⟩
    unfold nlqtTestLin at h
    obtain ⟨P', h1, h⟩ := bind_ok.1 h
    obtain ⟨c0, -, h⟩ := bind_ok.1 h
    obtain ⟨c1, h3, -⟩ := bind_ok.1 h
    unfold nlqtTestLinAt at h3
    obtain ⟨s, -, h3⟩ := bind_ok.1 h3
    obtain ⟨x, -, h3⟩ := bind_ok.1 h3
    obtain ⟨u, hu, -⟩ := bind_ok.1 h3
    refine ⟨(List.getElem?_eq_some_iff.1 (pyGet_ok.1 hu)).1, ?_⟩
    by_contra hc
    rw [(C33_linearize M P us xs).2 hc] at h1
    cases h1
  · rintro ⟨h2, hs, hx⟩
    obtain ⟨P', hl, -, -, hk, -⟩ := (C33_linearize M P us xs).1 ⟨hs, hx⟩
    have key : ∀ k, k < 2 → ∃ c : Prop, nlqtTestLinAt M P' us xs k = .ok c ∧ c := by
      intro k hk2
      have ku : k < us.length := by omega
      have kx : k < xs.length := by omega
      have ks : k < P.stages.length := by omega
      obtain ⟨s', e1, -, e3⟩ := hk k _ _ _ (List.getElem?_eq_getElem kx) (List.getElem?_eq_getElem ku)
        (List.getElem?_eq_getElem ks)
      refine ⟨_, bind_ok.2 ⟨_, pyGet_ok.2 e1, bind_ok.2 ⟨_, pyGet_lt kx, bind_ok.2 ⟨_, pyGet_lt ku, rfl⟩⟩⟩, ?_⟩
      have e4 : s'.F *ᵥ xs[k] + s'.c + s'.L *ᵥ us[k] = M.f xs[k] us[k] := e3
      rw [e4, normDiff_self]
      exact testTol_pos
    obtain ⟨c0, h0, p0⟩ := key 0 (by omega)
    obtain ⟨c1, h1, p1⟩ := key 1 (by omega)
    exact ⟨c0 ∧ c1, bind_ok.2 ⟨_, hl, bind_ok.2 ⟨_, h0, bind_ok.2 ⟨_, h1, rfl⟩⟩⟩, p0, p1⟩

/-- **C116** (wrong derivatives): replacing the Jacobians of the model by any others does not change whether
`test_linearize` passes. -/
theorem C116_jacobians (M : NModel n m ℝ) (Fx : (Fin n → ℝ) → (Fin m → ℝ) → Matrix (Fin n) (Fin n) ℝ)
    (Fu : (Fin n → ℝ) → (Fin m → ℝ) → Matrix (Fin n) (Fin m) ℝ) (P : LQT n m ℝ) (us : List (Fin m → ℝ))
    (xs : List (Fin n → ℝ)) :
    Passes (nlqtTestLin { M with Fx := Fx, Fu := Fu } P us xs) ↔ Passes (nlqtTestLin M P us xs) := by
  rw [C116_linearize, C116_linearize]

/-- A tracker with three steps. -/
noncomputable def exLinCost : LQT 1 1 ℝ := ⟨List.replicate 3 ⟨1, 1, 1, 1, 1, 0, 1, 0, 1, 0, 0⟩, 1, 1, 1, 0⟩

/-- A quadratic model whose Jacobians are wrongly given as zero. -/
def exZeroJac : NModel 1 1 ℝ := ⟨fun x u => ![x 0 ^ 2 + u 0], fun _ _ => 0, fun _ _ => 0⟩

example : Passes (nlqtTestLin exZeroJac exLinCost [![1], ![-2], ![0]] [![1], ![0], ![3], ![1]]) :=
  (C116_linearize _ _ _ _).2 ⟨by simp, by simp [exLinCost], by simp⟩

/-- The right Jacobians. -/
example : Passes (nlqtTestLin { exZeroJac with Fx := fun x _ => !![2 * x 0], Fu := fun _ _ => 1 } exLinCost
    [![1], ![-2], ![0]] [![1], ![0], ![3], ![1]]) :=
  (C116_jacobians _ _ _ _ _ _).2 ((C116_linearize _ _ _ _).2 ⟨by simp, by simp [exLinCost], by simp⟩)

/-- One control is too few. -/
example : ¬ Passes (nlqtTestLin exZeroJac exLinCost [![1]] [![1], ![0]]) := by
  rw [C116_linearize]; simp

/-- **C116** (simulation): `test_simulate` passes exactly if there are a control and a state. -/
theorem C116_simulate (M : NModel n m ℝ) (us : List (Fin m → ℝ)) (xs : List (Fin n → ℝ)) :
    Passes (nlqtTestSim M us xs) ↔ us ≠ [] ∧ xs ≠ [] := by
  constructor
  · rintro ⟨Q, h, -⟩
    unfold nlqtTestSim at h
    obtain ⟨x, hx, h⟩ := bind_ok.1 h
    obtain ⟨y1, -, h⟩ := bind_ok.1 h
    obtain ⟨y0, -, h⟩ := bind_ok.1 h
    obtain ⟨u, hu, -⟩ := bind_ok.1 h
    constructor
    · rintro rfl; rw [pyGet_ok] at hu; simp at hu
    · rintro rfl; rw [pyGet_ok] at hx; simp at hx
  · rintro ⟨hu, hx⟩
    obtain ⟨u, us, rfl⟩ := List.exists_cons_of_ne_nil hu
    obtain ⟨x, xs, rfl⟩ := List.exists_cons_of_ne_nil hx
    refine ⟨normDiff (M.f x u) (M.f x u) < testTol, ?_, by rw [normDiff_self]; exact testTol_pos⟩
    unfold nlqtTestSim
    refine bind_ok.2 ⟨x, rfl, ?_⟩
    rw [M.simulate_eq]
    exact bind_ok.2 ⟨M.f x u, rfl, bind_ok.2 ⟨x, rfl, bind_ok.2 ⟨u, rfl, rfl⟩⟩⟩

example : Passes (nlqtTestSim exZeroJac [![1], ![-2]] [![1]]) := (C116_simulate _ _ _).2 ⟨by simp, by simp⟩

end Verif
