import Verif.Proof.CLQTExist
import Verif.Proof.CLQTOpt

/-! Convergence of the sequential passes stated for the returned lists, and optimality of the limit. -/

namespace Verif

open Matrix Set

attribute [local instance] Matrix.normedAddCommGroup Matrix.normedSpace

variable {n m : ℕ} {a b : ℝ}

theorem mul_entry_le {p q r : ℕ} {M : Matrix (Fin p) (Fin q) ℝ} {W : Matrix (Fin q) (Fin r) ℝ} {e s : ℝ} {i : Fin p} {j : Fin r}
    (hM : ∀ k, |M i k| ≤ e) (hW : ∀ k, |W k j| ≤ s) (he : 0 ≤ e) : |(M * W) i j| ≤ q * (e * s) := by
  have := mulVec_entry_le (w := fun k => W k j) hM hW he
  simpa [Matrix.mul_apply, Matrix.mulVec, dotProduct] using this

theorem CLQT.bw_converges_gain {P : CLQT n m ℝ} (hP : P.ContData a b) (hab : a < b) {S : ℝ → Matrix (Fin n) (Fin n) ℝ} {v : ℝ → Fin n → ℝ}
    (hR : P.RicOn a b S v) : ∀ ε > 0, ∃ δ > 0, ∀ (N : ℕ) (h : ℝ) (s : CVal n ℝ), 0 < h → h < δ → a + N * h = b →
      (∀ i j, |s.1 i j - S b i j| ≤ δ) → (∀ i, |s.2 i - v b i| ≤ δ) →
      ∃ (σ : ℕ → CVal n ℝ) (κ : ℕ → Matrix (Fin m) (Fin n) ℝ × (Fin m → ℝ)), σ N = s ∧ P.BwSeq N h a σ κ ∧
        (∀ k ≤ N, (∀ i j, |(σ k).1 i j - S (a + k * h) i j| ≤ ε) ∧ ∀ i, |(σ k).2 i - v (a + k * h) i| ≤ ε) ∧
        ∀ k < N, (∀ i j, |(κ k).1 i j - P.gain S (a + k * h) i j| ≤ ε) ∧ ∀ i, |(κ k).2 i - P.offset v (a + k * h) i| ≤ ε := by
  intro ε hε
  obtain ⟨⟨M, hM0, hM⟩, -⟩ := mat_unif hP.ultCont
  have hpos : 0 < (n : ℝ) * M + 1 := by positivity
  obtain ⟨δ, hδ, hc⟩ := P.bw_converges hP hab hR (min ε (ε / (n * M + 1))) (lt_min hε (by positivity))
  refine ⟨δ, hδ, fun N h s hh hhδ hN h1 h2 => ?_⟩
  obtain ⟨σ, κ, h0, hseq, hn, hk⟩ := hc N h s hh hhδ hN h1 h2
  refine ⟨σ, κ, h0, hseq, fun k hkN => ⟨fun i j => ((hn k hkN).1 i j).trans (min_le_left _ _),
    fun i => ((hn k hkN).2 i).trans (min_le_left _ _)⟩, fun k hkN => ?_⟩
  have ht : a + k * h ∈ Icc a b := by
    refine ⟨by nlinarith [(Nat.cast_nonneg k : (0 : ℝ) ≤ k)], ?_⟩
    have : (k : ℝ) ≤ N := by exact_mod_cast hkN.le
    nlinarith
  have hfin : (n : ℝ) * (M * (ε / (n * M + 1))) ≤ ε := by
    rw [← mul_assoc, ← mul_div_assoc, div_le_iff₀ hpos]
    nlinarith
  rw [hk k hkN]
  refine ⟨fun i j => ?_, fun i => ?_⟩
  · have := mul_entry_le (W := (σ k).1 - S (a + k * h)) (j := j) (fun l => hM _ ht i l)
      (fun l => ((hn k hkN.le).1 l j).trans (min_le_right _ _)) hM0
    rw [Matrix.mul_sub, Matrix.sub_apply] at this
    exact this.trans hfin
  · have := mulVec_entry_le (w := (σ k).2 - v (a + k * h)) (fun l => hM _ ht i l)
      (fun l => ((hn k hkN.le).2 l).trans (min_le_right _ _)) hM0
    rw [Matrix.mulVec_sub, Pi.sub_apply] at this
    exact this.trans hfin

theorem CLQT.gainCont {P : CLQT n m ℝ} (hP : P.ContData a b) {S : ℝ → Matrix (Fin n) (Fin n) ℝ}
    (hS : ∀ i j, ContinuousOn (fun t => S t i j) (Icc a b)) (i : Fin m) (j : Fin n) :
    ContinuousOn (fun t => P.gain S t i j) (Icc a b) := contOn_mul hP.ultCont hS i j

theorem CLQT.offsetCont {P : CLQT n m ℝ} (hP : P.ContData a b) {v : ℝ → Fin n → ℝ}
    (hv : ∀ i, ContinuousOn (fun t => v t i) (Icc a b)) (i : Fin m) :
    ContinuousOn (fun t => P.offset v t i) (Icc a b) := contOn_mulVec hP.ultCont hv i

theorem matsNear_map {p q : ℕ} {f : ℕ → Matrix (Fin p) (Fin q) ℝ} {N : ℕ} {h ε : ℝ} {g : ℝ → Matrix (Fin p) (Fin q) ℝ}
    (H : ∀ k < N, ∀ i j, |f k i j - g (k * h) i j| ≤ ε) : MatsNear ((List.range N).map f) N h g ε := by
  refine ⟨by simp, fun k A hA => ?_⟩
  rw [List.getElem?_map] at hA
  by_cases hk : k < N
  · rw [List.getElem?_range hk] at hA
    obtain rfl := Option.some.inj hA
    exact H k hk
  · rw [List.getElem?_eq_none (by simpa using hk)] at hA
    simp at hA

theorem vecsNear_map {p : ℕ} {f : ℕ → Fin p → ℝ} {N : ℕ} {h ε : ℝ} {g : ℝ → Fin p → ℝ}
    (H : ∀ k < N, ∀ i, |f k i - g (k * h) i| ≤ ε) : VecsNear ((List.range N).map f) N h g ε := by
  refine ⟨by simp, fun k A hA => ?_⟩
  rw [List.getElem?_map] at hA
  by_cases hk : k < N
  · rw [List.getElem?_range hk] at hA
    obtain rfl := Option.some.inj hA
    exact H k hk
  · rw [List.getElem?_eq_none (by simpa using hk)] at hA
    simp at hA

/-- Large step counts give small steps. -/
theorem exists_steps {T δ : ℝ} (hT : 0 < T) (hδ : 0 < δ) :
    ∃ N0 : ℕ, 0 < N0 ∧ ∀ N ≥ N0, 0 < T / N ∧ T / N < δ ∧ 0 + (N : ℝ) * (T / N) = T := by
  obtain ⟨M, hM⟩ := exists_nat_gt (T / δ)
  refine ⟨M + 1, by omega, fun N hN => ?_⟩
  have h1 : (M : ℝ) < N := by exact_mod_cast hN
  have hN0 : (0 : ℝ) < N := lt_of_le_of_lt (Nat.cast_nonneg M) h1
  refine ⟨by positivity, ?_, ?_⟩
  · rw [div_lt_iff₀ hN0]
    rw [div_lt_iff₀ hδ] at hM
    nlinarith
  · field_simp
    simp

theorem CLQT.dtSeq_none {P : CLQT n m ℝ} {N : ℕ} (hN : 0 < N) : P.dtSeq N none = .ok (P.T / N) := by
  simp [CLQT.dtSeq, pyDiv, hN.ne']

theorem CLQT.bw_lists {P : CLQT n m ℝ} (h0 : 0 < P.T) (hP : P.ContData 0 P.T) {S : ℝ → Matrix (Fin n) (Fin n) ℝ} {v : ℝ → Fin n → ℝ}
    (hR : P.IsRiccati 0 S v) : ∀ ε > 0, ∃ N0 : ℕ, 0 < N0 ∧ ∀ N ≥ N0,
      ∃ (σ : ℕ → CVal n ℝ) (κ : ℕ → Matrix (Fin m) (Fin n) ℝ × (Fin m → ℝ)), P.seqBackwardPass N none none none none = .ok (bwLists N σ κ) ∧
        (∀ k ≤ N, (∀ i j, |(σ k).1 i j - S (k * (P.T / N)) i j| ≤ ε) ∧ ∀ i, |(σ k).2 i - v (k * (P.T / N)) i| ≤ ε) ∧
        ∀ k < N, (∀ i j, |(κ k).1 i j - P.gain S (k * (P.T / N)) i j| ≤ ε) ∧ ∀ i, |(κ k).2 i - P.offset v (k * (P.T / N)) i| ≤ ε := by
  intro ε hε
  obtain ⟨δ, hδ, hc⟩ := P.bw_converges_gain hP h0 (hR.ricOn h0 hP) ε hε
  obtain ⟨N0, hN0, hs⟩ := exists_steps h0 hδ
  refine ⟨N0, hN0, fun N hN => ?_⟩
  obtain ⟨hh, hhδ, hT⟩ := hs N hN
  obtain ⟨σ, κ, h1, hseq, hn, hk⟩ := hc N (P.T / N) (P.HTᵀ * P.XT * P.HT, (P.HTᵀ * P.XT) *ᵥ P.rT) hh hhδ hT
    (fun i j => by rw [hR.termS]; simpa using hδ.le) (fun i => by rw [hR.termv]; simpa using hδ.le)
  simp only [zero_add] at hn hk
  exact ⟨σ, κ, CLQT.seqBackward_ok.2 ⟨_, P.dtSeq_none (by omega), σ, κ, h1, hseq, rfl⟩, hn, hk⟩

theorem CLQT.runCost_cont {P : CLQT n m ℝ} (hP : P.ContData a b) {x : ℝ → Fin n → ℝ} {u : ℝ → Fin m → ℝ}
    (hx : ∀ i, ContinuousOn (fun t => x t i) (Icc a b)) (hu : ∀ i, ContinuousOn (fun t => u t i) (Icc a b)) :
    ContinuousOn (fun t => P.runCost t (x t) (u t)) (Icc a b) := by
  have hdot : ∀ {p : ℕ} {f g : ℝ → Fin p → ℝ}, (∀ i, ContinuousOn (fun t => f t i) (Icc a b)) →
      (∀ i, ContinuousOn (fun t => g t i) (Icc a b)) → ContinuousOn (fun t => f t ⬝ᵥ g t) (Icc a b) := by
    intro p f g hf hg
    simp only [dotProduct]
    exact continuousOn_finsetSum _ fun i _ => (hf i).mul (hg i)
  have he : ∀ i, ContinuousOn (fun t => (P.H t *ᵥ x t - P.r t) i) (Icc a b) := fun i =>
    (contOn_mulVec hP.H hx i).sub (hP.r i)
  exact (continuousOn_const.mul (hdot he (contOn_mulVec hP.X he))).add (continuousOn_const.mul (hdot hu (contOn_mulVec hP.U hu)))

end Verif
