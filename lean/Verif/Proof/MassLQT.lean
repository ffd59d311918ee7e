import Verif.Proof.MassEnergy
import Verif.Proof.ExampleLQT
import Verif.Props.LQTCheck

/-! Helper lemmas for the chain of masses: the LQT object. -/

namespace Verif

open Matrix

variable {N : ℕ}

/-- The step of the LQT object. -/
noncomputable def massStage (N : ℕ) (dt : ℝ) : LStage (2 * N) 2 ℝ :=
  ⟨2 * N, discA (massFc N) dt, discB (massFc N) (massLc N) dt, 1, (1 / 10 : ℝ) • 1, 0, 1, 0, 1, 0, 0⟩

/-- The LQT object. -/
noncomputable def massLQT (N T : ℕ) (dt : ℝ) : LQT (2 * N) 2 ℝ := ⟨List.replicate T (massStage N dt), 2 * N, 1, 1, 0⟩

theorem getLQT_eq (mm : MassModel N ℝ) (hF : mm.Fc = massFc N) (hL : mm.Lc = massLc N) (hX : mm.X = 1)
    (hU : mm.U = (1 / 10 : ℝ) • 1) (hXT : mm.XT = 1) (dt Tf : ℝ) (hdt : dt ≠ 0) :
    mm.getLQT dt Tf = .ok ((massLQT N (pyInt (Tf / dt)).toNat dt).raw, mm.x0) := by
  have hb : ∀ {α β : Type} (a : α) (f : α → Py β), ((Except.ok a : Py α) >>= f) = f a := fun _ _ => rfl
  unfold MassModel.getLQT
  dsimp only
  rw [hF, hL, ltiDiscU_eq _ _ _ (.mat 1) 1 rfl, hb]
  dsimp only
  rw [if_neg hdt]
  have key : LQTArgs.checkAndExpand (mm.lqtArgs (discA (massFc N) dt) (discB (massFc N) (massLc N) dt) (pyInt (Tf / dt))) =
      .ok (massLQT N (pyInt (Tf / dt)).toNat dt).raw := by
    rw [C29_ok_iff]
    have hrep : ∀ {α : Type} (f : LStage (2 * N) 2 ℝ → α) (a : α), f (massStage N dt) = a →
        (ListOr.one a).Expands (pyInt (Tf / dt)) ((massLQT N (pyInt (Tf / dt)).toNat dt).stages.map f) := by
      intro α f a h
      refine ⟨by simp [massLQT], fun b hb => ?_⟩
      obtain ⟨s, hs, rfl⟩ := List.mem_map.1 hb
      rw [List.eq_of_mem_replicate hs, h]
    have hopt : ∀ {α : Type} (D : α → Prop) (f : LStage (2 * N) 2 ℝ → α), D (f (massStage N dt)) →
        OptExpands none D (pyInt (Tf / dt)) ((massLQT N (pyInt (Tf / dt)).toNat dt).stages.map f) := by
      intro α D f h
      exact ⟨.one (f (massStage N dt)), ⟨by simp, fun _ => ⟨_, rfl, h⟩⟩, hrep f _ rfl⟩
    have hz1 : ∀ p : ℕ, (NArr1.ofVec (0 : Fin p → ℝ)).IsZero p := fun p => ⟨rfl, fun _ => rfl⟩
    have hsome : ∀ {α : Type} (a b : α) (D : α → Prop), b = a → OptIs (some a) D b := by
      intro α a b D h
      exact ⟨fun c hc => by rw [h]; exact Option.some.inj hc, by simp⟩
    refine ⟨pyInt (Tf / dt), .ofMat (discA (massFc N) dt), .ofMat (discB (massFc N) (massLc N) dt), .ofMat mm.X, fun _ => rfl,
      rfl, rfl, rfl, hrep _ _ rfl, hrep _ _ rfl, hrep _ _ ?_, hrep _ _ ?_, hsome _ _ _ ?_,
      hopt _ _ (hz1 _), hopt _ _ (eye_isEye _), hopt _ _ (hz1 _), ⟨by simp [MassModel.lqtArgs], fun _ => eye_isEye _⟩,
      ⟨by simp [MassModel.lqtArgs], fun _ => hz1 _⟩, hopt _ _ (eye_isEye _), hopt _ _ (hz1 _), hopt _ _ ⟨rfl, rfl, fun _ _ => rfl⟩, ?_⟩
    · rw [hX]; rfl
    · rw [hU]; rfl
    · rw [hXT]; rfl
    · have := LQT.raw_shaped (massLQT N (pyInt (Tf / dt)).toNat dt)
      rw [show (massLQT N (pyInt (Tf / dt)).toNat dt).stages.length = (pyInt (Tf / dt)).toNat from List.length_replicate] at this
      exact this
  rw [key]
  rfl

theorem massStage_convex (dt : ℝ) : (massStage N dt).Convex :=
  convex_of _ _ _ _ _ _ _ (by rw [← one_smul ℝ (1 : Matrix (Fin (2 * N)) (Fin (2 * N)) ℝ)]; exact isPSD_smul_one 1 zero_le_one)
    (isPSD_smul_one _ (by norm_num)).1 (isPD_smul_one _ (by norm_num))

theorem massLQT_convex (T : ℕ) (dt : ℝ) : (massLQT N T dt).Convex := by
  refine ⟨fun s hs => ?_, ?_⟩
  · rw [List.eq_of_mem_replicate hs]
    exact massStage_convex dt
  · have := isPSD_smul_one (ι := Fin (2 * N)) (1 : ℝ) zero_le_one
    rw [one_smul] at this
    exact this

theorem massStage_cost (dt : ℝ) (x : Fin (2 * N) → ℝ) (u : Fin 2 → ℝ) :
    (massStage N dt).cost x u = (1 / 2) * (x ⬝ᵥ x) + (1 / 2) * ((1 / 10) * (u ⬝ᵥ u)) := by
  unfold LStage.cost halfQuad massStage
  dsimp only
  simp only [Matrix.one_mulVec, Matrix.zero_mulVec, Matrix.smul_mulVec, sub_zero, dotProduct_zero, add_zero, dotProduct_smul,
    smul_eq_mul]

theorem massStage_next (dt : ℝ) (x : Fin (2 * N) → ℝ) (u : Fin 2 → ℝ) :
    (massStage N dt).next x u = discA (massFc N) dt *ᵥ x + discB (massFc N) (massLc N) dt *ᵥ u := by
  unfold LStage.next massStage
  dsimp only
  rw [add_zero]

end Verif
