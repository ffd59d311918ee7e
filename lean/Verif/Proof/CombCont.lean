import Verif.Proof.ScanGraded
import Verif.Proof.CLQTConv
import Verif.Proof.LQTElem

/-! The combination of elements is continuous, so that a scan of elements near to semidefinite ones succeeds. -/

namespace Verif

open Set Matrix Filter Topology

attribute [local instance] Matrix.normedAddCommGroup Matrix.normedSpace

variable {n m : ℕ}

/-- All entries of the elements differ by at most `δ`. -/
structure ENear (e e' : Elem n ℝ) (δ : ℝ) : Prop where
  A : ∀ i j, |e.A i j - e'.A i j| ≤ δ
  b : ∀ i, |e.b i - e'.b i| ≤ δ
  C : ∀ i j, |e.C i j - e'.C i j| ≤ δ
  eta : ∀ i, |e.eta i - e'.eta i| ≤ δ
  J : ∀ i j, |e.J i j - e'.J i j| ≤ δ

theorem ENear.mono {e e' : Elem n ℝ} {δ ε : ℝ} (h : ENear e e' δ) (hδ : δ ≤ ε) : ENear e e' ε :=
  ⟨fun i j => (h.A i j).trans hδ, fun i => (h.b i).trans hδ, fun i j => (h.C i j).trans hδ, fun i => (h.eta i).trans hδ,
    fun i j => (h.J i j).trans hδ⟩

theorem ENear.refl (e : Elem n ℝ) {δ : ℝ} (hδ : 0 ≤ δ) : ENear e e δ := by
  constructor <;> intros <;> simpa using hδ

theorem enear_iff {e e' : Elem n ℝ} {δ : ℝ} (hδ : 0 ≤ δ) : ENear e e' δ ↔ ‖packABCEJ e - packABCEJ e'‖ ≤ δ := by
  rw [Matrix.norm_le_iff hδ]
  constructor
  · intro h i j
    rw [Real.norm_eq_abs, Matrix.sub_apply]
    unfold packABCEJ
    simp only [Matrix.of_apply]
    split_ifs
    · exact h.A _ _
    · exact h.C _ _
    · exact h.J _ _
    · exact h.b _
    · exact h.eta _
    · simpa using hδ
  · intro h
    have key : ∀ i j, |packABCEJ e i j - packABCEJ e' i j| ≤ δ := fun i j => by
      have := h i j
      rwa [Real.norm_eq_abs, Matrix.sub_apply] at this
    rw [← unpack_packABCEJ e, ← unpack_packABCEJ e']
    exact ⟨fun i j => key i _, fun i => key i _, fun i j => key i _, fun i => key i _, fun i j => key i _⟩

/-- The combination without errors. -/
noncomputable def combT (e1 e2 : Elem n ℝ) : Elem n ℝ :=
  ⟨e2.A * ((1 + e1.C * e2.J)⁻¹ * e1.A), e2.A *ᵥ ((1 + e1.C * e2.J)⁻¹ *ᵥ (e1.b + e1.C *ᵥ e2.eta)) + e2.b,
    e2.A * ((1 + e1.C * e2.J)⁻¹ * (e1.C * e2.Aᵀ)) + e2.C, e1.Aᵀ *ᵥ ((1 + e2.J * e1.C)⁻¹ *ᵥ (e2.eta - e2.J *ᵥ e1.b)) + e1.eta,
    e1.Aᵀ * ((1 + e2.J * e1.C)⁻¹ * (e2.J * e1.A)) + e1.J⟩

theorem combine_T {e1 e2 : Elem n ℝ} (h : (1 + e1.C * e2.J).det ≠ 0) : combineABCEJ e1 e2 = .ok (combT e1 e2) := by
  obtain ⟨e, he⟩ := combine_defined h
  obtain ⟨P, Q, ⟨hP, -⟩, ⟨hQ, -⟩, rfl⟩ := combine_ok he
  rw [he, combT, Matrix.inv_eq_right_inv hP, Matrix.inv_eq_right_inv hQ]

section
variable {X : Type*} [TopologicalSpace X] {x : X}

theorem cat_mul {p q r : ℕ} {M : X → Matrix (Fin p) (Fin q) ℝ} {N : X → Matrix (Fin q) (Fin r) ℝ} (h1 : ∀ i j, ContinuousAt (fun x => M x i j) x)
    (h2 : ∀ i j, ContinuousAt (fun x => N x i j) x) (i : Fin p) (j : Fin r) : ContinuousAt (fun x => (M x * N x) i j) x := by
  simp only [Matrix.mul_apply]
  exact tendsto_finsetSum _ fun k _ => (h1 i k).mul (h2 k j)

theorem cat_mulVec {p q : ℕ} {M : X → Matrix (Fin p) (Fin q) ℝ} {v : X → Fin q → ℝ} (h1 : ∀ i j, ContinuousAt (fun x => M x i j) x)
    (h2 : ∀ i, ContinuousAt (fun x => v x i) x) (i : Fin p) : ContinuousAt (fun x => (M x *ᵥ v x) i) x := by
  simp only [Matrix.mulVec, dotProduct]
  exact tendsto_finsetSum _ fun k _ => (h1 i k).mul (h2 k)

theorem cat_mat {p q : ℕ} {M : X → Matrix (Fin p) (Fin q) ℝ} (h : ∀ i j, ContinuousAt (fun x => M x i j) x) : ContinuousAt M x :=
  continuousAt_pi.2 fun i => continuousAt_pi.2 fun j => h i j

theorem cat_inv {k : ℕ} {U : X → Matrix (Fin k) (Fin k) ℝ} (h : ∀ i j, ContinuousAt (fun x => U x i j) x)
    (hd : (U x).det ≠ 0) (i j : Fin k) : ContinuousAt (fun t => (U t)⁻¹ i j) x := by
  have hU := cat_mat h
  have h1 : ContinuousAt (fun t => (U t).det) x := (continuous_id.matrix_det).continuousAt.comp hU
  have h2 : ContinuousAt (fun t => (U t).adjugate i j) x :=
    ((continuous_id.matrix_adjugate).matrix_elem i j).continuousAt.comp hU
  have h3 : (fun t => (U t)⁻¹ i j) = fun t => (U t).det⁻¹ * (U t).adjugate i j := by
    funext t
    rw [Matrix.inv_def, Ring.inverse_eq_inv', Matrix.smul_apply, smul_eq_mul]
  rw [h3]
  exact (h1.inv₀ hd).mul h2
end

/-- The combination is defined and continuous near elements that can be combined. -/
theorem comb_near {e1 e2 : Elem n ℝ} (hd : (1 + e1.C * e2.J).det ≠ 0) {ε : ℝ} (hε : 0 < ε) :
    ∀ᶠ δ in 𝓝[>] (0 : ℝ), ∀ e1' e2', ENear e1' e1 δ → ENear e2' e2 δ →
      ∃ e', combineABCEJ e1' e2' = .ok e' ∧ ENear e' (combT e1 e2) ε := by
  let X := Matrix (Fin n) (Fin (3 * n + 2)) ℝ
  let p0 : X × X := (packABCEJ e1, packABCEJ e2)
  have u1 : unpackABCEJ p0.1 = e1 := unpack_packABCEJ e1
  have u2 : unpackABCEJ p0.2 = e2 := unpack_packABCEJ e2
  have hent : ∀ i j, ContinuousAt (fun p : X × X => p.1 i j) p0 := fun i j =>
    ((continuous_apply j).comp ((continuous_apply i).comp continuous_fst)).continuousAt
  have hent' : ∀ i j, ContinuousAt (fun p : X × X => p.2 i j) p0 := fun i j =>
    ((continuous_apply j).comp ((continuous_apply i).comp continuous_snd)).continuousAt
  have A1 : ∀ i j, ContinuousAt (fun p : X × X => (unpackABCEJ p.1).A i j) p0 := fun i j => hent i _
  have C1 : ∀ i j, ContinuousAt (fun p : X × X => (unpackABCEJ p.1).C i j) p0 := fun i j => hent i _
  have J1 : ∀ i j, ContinuousAt (fun p : X × X => (unpackABCEJ p.1).J i j) p0 := fun i j => hent i _
  have b1 : ∀ i, ContinuousAt (fun p : X × X => (unpackABCEJ p.1).b i) p0 := fun i => hent i _
  have h1 : ∀ i, ContinuousAt (fun p : X × X => (unpackABCEJ p.1).eta i) p0 := fun i => hent i _
  have A2 : ∀ i j, ContinuousAt (fun p : X × X => (unpackABCEJ p.2).A i j) p0 := fun i j => hent' i _
  have C2 : ∀ i j, ContinuousAt (fun p : X × X => (unpackABCEJ p.2).C i j) p0 := fun i j => hent' i _
  have J2 : ∀ i j, ContinuousAt (fun p : X × X => (unpackABCEJ p.2).J i j) p0 := fun i j => hent' i _
  have b2 : ∀ i, ContinuousAt (fun p : X × X => (unpackABCEJ p.2).b i) p0 := fun i => hent' i _
  have h2 : ∀ i, ContinuousAt (fun p : X × X => (unpackABCEJ p.2).eta i) p0 := fun i => hent' i _
  have hD1 : ∀ i j, ContinuousAt (fun p : X × X => (1 + (unpackABCEJ p.1).C * (unpackABCEJ p.2).J) i j) p0 := fun i j =>
    continuousAt_const.add (cat_mul C1 J2 i j)
  have hD2 : ∀ i j, ContinuousAt (fun p : X × X => (1 + (unpackABCEJ p.2).J * (unpackABCEJ p.1).C) i j) p0 := fun i j =>
    continuousAt_const.add (cat_mul J2 C1 i j)
  have hd1 : (1 + (unpackABCEJ p0.1).C * (unpackABCEJ p0.2).J).det ≠ 0 := by rwa [u1, u2]
  have hd2 : (1 + (unpackABCEJ p0.2).J * (unpackABCEJ p0.1).C).det ≠ 0 := by rwa [u1, u2, det_one_add_mul_comm]
  have I1 := fun i j => cat_inv hD1 hd1 i j
  have I2 := fun i j => cat_inv hD2 hd2 i j
  have T1 : ∀ i j, ContinuousAt (fun p : X × X => (unpackABCEJ p.1).Aᵀ i j) p0 := fun i j => A1 j i
  have T2 : ∀ i j, ContinuousAt (fun p : X × X => (unpackABCEJ p.2).Aᵀ i j) p0 := fun i j => A2 j i
  have cA : ∀ i j, ContinuousAt (fun p : X × X => (combT (unpackABCEJ p.1) (unpackABCEJ p.2)).A i j) p0 :=
    cat_mul A2 (cat_mul I1 A1)
  have cC : ∀ i j, ContinuousAt (fun p : X × X => (combT (unpackABCEJ p.1) (unpackABCEJ p.2)).C i j) p0 := fun i j =>
    (cat_mul A2 (cat_mul I1 (cat_mul C1 T2)) i j).add (C2 i j)
  have cJ : ∀ i j, ContinuousAt (fun p : X × X => (combT (unpackABCEJ p.1) (unpackABCEJ p.2)).J i j) p0 := fun i j =>
    (cat_mul T1 (cat_mul I2 (cat_mul J2 A1)) i j).add (J1 i j)
  have cb : ∀ i, ContinuousAt (fun p : X × X => (combT (unpackABCEJ p.1) (unpackABCEJ p.2)).b i) p0 := fun i =>
    (cat_mulVec A2 (cat_mulVec I1 fun i => (b1 i).add (cat_mulVec C1 h2 i)) i).add (b2 i)
  have ch : ∀ i, ContinuousAt (fun p : X × X => (combT (unpackABCEJ p.1) (unpackABCEJ p.2)).eta i) p0 := fun i =>
    (cat_mulVec T1 (cat_mulVec I2 fun i => (h2 i).sub (cat_mulVec J2 b1 i)) i).add (h1 i)
  have hclose : ∀ {f : X × X → ℝ}, ContinuousAt f p0 → ∀ᶠ p in 𝓝 p0, |f p - f p0| ≤ ε := fun {f} hf => by
    filter_upwards [hf (Metric.ball_mem_nhds _ hε)] with p hp
    exact (Metric.mem_ball.1 hp).le
  have hdet : ∀ᶠ p in 𝓝 p0, (1 + (unpackABCEJ p.1).C * (unpackABCEJ p.2).J).det ≠ 0 :=
    ((continuous_id.matrix_det).continuousAt.comp (cat_mat hD1)).eventually_ne hd1
  have hall : ∀ᶠ p in 𝓝 p0, (1 + (unpackABCEJ p.1).C * (unpackABCEJ p.2).J).det ≠ 0 ∧
      ENear (combT (unpackABCEJ p.1) (unpackABCEJ p.2)) (combT (unpackABCEJ p0.1) (unpackABCEJ p0.2)) ε := by
    have eA := eventually_all.2 fun i => eventually_all.2 fun j => hclose (cA i j)
    have eC := eventually_all.2 fun i => eventually_all.2 fun j => hclose (cC i j)
    have eJ := eventually_all.2 fun i => eventually_all.2 fun j => hclose (cJ i j)
    have eb := eventually_all.2 fun i => hclose (cb i)
    have eh := eventually_all.2 fun i => hclose (ch i)
    filter_upwards [hdet, eA, eC, eJ, eb, eh] with p a1 a2 a3 a4 a5 a6
    exact ⟨a1, a2, a5, a3, a6, a4⟩
  obtain ⟨r, hr, hball⟩ := Metric.eventually_nhds_iff.1 hall
  filter_upwards [Ioo_mem_nhdsGT hr] with δ hδ e1' e2' n1 n2
  have hdist : dist (packABCEJ e1', packABCEJ e2') p0 < r := by
    rw [Prod.dist_eq]
    refine max_lt ?_ ?_
    · rw [dist_eq_norm]
      exact ((enear_iff hδ.1.le).1 n1).trans_lt hδ.2
    · rw [dist_eq_norm]
      exact ((enear_iff hδ.1.le).1 n2).trans_lt hδ.2
  have := hball hdist
  simp only [unpack_packABCEJ, u1, u2] at this
  exact ⟨_, combine_T this.1, this.2⟩

/-- Around finitely many semidefinite elements the combination can be applied any given number of times. -/
theorem graded_near : ∀ (N : ℕ) {K : Set (Elem n ℝ)}, K.Finite → (∀ e ∈ K, e.PSD) → ∃ P : ℕ → Elem n ℝ → Prop,
    Graded P combineABCEJ N ∧ ∃ δ > 0, ∀ e, (∃ k ∈ K, ENear e k δ) → P 0 e
  | 0, K, _, _ => ⟨fun _ _ => True, ⟨fun _ _ _ => trivial, fun t ht => absurd ht (Nat.not_lt_zero t)⟩, 1, one_pos, fun _ _ => trivial⟩
  | N + 1, K, hK, hp => by
    have hpsd : ∀ e ∈ K ∪ (fun p : Elem n ℝ × Elem n ℝ => combT p.1 p.2) '' (K ×ˢ K), e.PSD := by
      rintro e (he | ⟨⟨e1, e2⟩, ⟨h1, h2⟩, rfl⟩)
      · exact hp e he
      · exact combine_psd (combine_T (det_one_add_ne_zero (hp _ h1).1 (hp _ h2).2)) (hp _ h1) (hp _ h2)
    obtain ⟨P, hP, δ', hδ', hnear⟩ := graded_near N (hK.union ((hK.prod hK).image _)) hpsd
    have hev : ∀ᶠ δ in 𝓝[>] (0 : ℝ), ∀ p ∈ K ×ˢ K, ∀ e1' e2', ENear e1' p.1 δ → ENear e2' p.2 δ →
        ∃ e', combineABCEJ e1' e2' = .ok e' ∧ ENear e' (combT p.1 p.2) δ' :=
      ((hK.prod hK).eventually_all).2 fun p hpm => comb_near (det_one_add_ne_zero (hp _ hpm.1).1 (hp _ hpm.2).2) hδ'
    obtain ⟨δ, hδ, hδ2⟩ := (hev.and (Ioo_mem_nhdsGT hδ')).exists
    refine ⟨fun t => match t with
      | 0 => fun e => ∃ k ∈ K, ENear e k δ
      | t + 1 => P t, ⟨fun t e he => ?_, fun t ht x y hx hy => ?_⟩, δ, hδ2.1, fun e he => he⟩
    · cases t with
      | zero =>
        obtain ⟨k, hk, hn⟩ := he
        exact hnear e ⟨k, .inl hk, hn.mono hδ2.2.le⟩
      | succ t => exact hP.1 t e he
    · cases t with
      | zero =>
        obtain ⟨k1, hk1, h1⟩ := hx
        obtain ⟨k2, hk2, h2⟩ := hy
        obtain ⟨z, hz, hn⟩ := hδ (k1, k2) ⟨hk1, hk2⟩ x y h1 h2
        exact ⟨z, hz, hnear z ⟨_, .inr ⟨(k1, k2), ⟨hk1, hk2⟩, rfl⟩, hn⟩⟩
      | succ t => exact hP.2 t (by omega) x y hx hy

/-- A scan of elements that are near enough to semidefinite ones succeeds. -/
theorem scan_near {K : Set (Elem n ℝ)} (hK : K.Finite) (hp : ∀ e ∈ K, e.PSD) (N : ℕ) : ∃ δ > 0, ∀ (a : List (Elem n ℝ)) (rev : Bool),
    a ≠ [] → a.length = N → (∀ e ∈ a, ∃ k ∈ K, ENear e k δ) → ∃ r, scanVals combineABCEJ a rev = .ok r := by
  obtain ⟨P, hP, δ, hδ, h⟩ := graded_near (scanOps N) hK hp
  exact ⟨δ, hδ, fun a rev hne hl ha => scanVals_graded hP hne (by rw [hl]) (fun e he => h e (ha e he)) rev⟩

end Verif
