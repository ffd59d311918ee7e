import Verif.Proof.CLQTFBConv

/-! Completion and convergence of the sequential and parallel forward-backward passes. -/

namespace Verif

open Set Matrix Filter Topology

variable {n m : ℕ} {a b : ℝ}

/-- Values of a forward-backward computation: what is integrated and what is combined with it. -/
structure CLQT.FBData (P : CLQT n m ℝ) (a b : ℝ) (S : ℝ → Matrix (Fin n) (Fin n) ℝ) (v : ℝ → Fin n → ℝ) (G : ℝ → Matrix (Fin m) (Fin n) ℝ)
    (d : ℝ → Fin m → ℝ) (β : ℝ → Fin n → ℝ) (Γ : ℝ → Matrix (Fin n) (Fin n) ℝ) : Prop where
  data : P.ContData a b
  abc : P.AbcOn a b β Γ
  cS : ∀ i j, ContinuousOn (fun t => S t i j) (Icc a b)
  cv : ∀ i, ContinuousOn (fun t => v t i) (Icc a b)
  cG : ∀ i j, ContinuousOn (fun t => G t i j) (Icc a b)
  cd : ∀ i, ContinuousOn (fun t => d t i) (Icc a b)
  psd : ∀ t ∈ Icc a b, IsPSD (S t)

section
variable {P : CLQT n m ℝ} {S Γ : ℝ → Matrix (Fin n) (Fin n) ℝ} {v β : ℝ → Fin n → ℝ} {G : ℝ → Matrix (Fin m) (Fin n) ℝ} {d : ℝ → Fin m → ℝ}

theorem CLQT.FBData.mono (h : P.FBData a b S v G d β Γ) {a' b' : ℝ} (ha : a ≤ a') (hb : b' ≤ b) : P.FBData a' b' S v G d β Γ :=
  ⟨h.data.mono ha hb, h.abc.mono ha hb, fun i j => (h.cS i j).mono (Icc_subset_Icc ha hb), fun i => (h.cv i).mono (Icc_subset_Icc ha hb),
    fun i j => (h.cG i j).mono (Icc_subset_Icc ha hb), fun i => (h.cd i).mono (Icc_subset_Icc ha hb), fun t ht => h.psd t (Icc_subset_Icc ha hb ht)⟩

/-- State of the exact combination. -/
noncomputable def fbx (S : ℝ → Matrix (Fin n) (Fin n) ℝ) (v β : ℝ → Fin n → ℝ) (Γ : ℝ → Matrix (Fin n) (Fin n) ℝ) (t : ℝ) : Fin n → ℝ :=
  fbState (S t) (v t) (β t) (Γ t)

/-- Values, gains and offsets near the exact ones at the points of a grid. -/
def BwNear (S : ℝ → Matrix (Fin n) (Fin n) ℝ) (v : ℝ → Fin n → ℝ) (G : ℝ → Matrix (Fin m) (Fin n) ℝ) (d : ℝ → Fin m → ℝ) (N : ℕ) (t0 h : ℝ)
    (σ : ℕ → CVal n ℝ) (κ : ℕ → Matrix (Fin m) (Fin n) ℝ × (Fin m → ℝ)) (δ : ℝ) : Prop :=
  (∀ k ≤ N, (∀ i j, |(σ k).1 i j - S (t0 + k * h) i j| ≤ δ) ∧ ∀ i, |(σ k).2 i - v (t0 + k * h) i| ≤ δ) ∧
  ∀ k < N, (∀ i j, |(κ k).1 i j - G (t0 + k * h) i j| ≤ δ) ∧ ∀ i, |(κ k).2 i - d (t0 + k * h) i| ≤ δ

theorem BwNear.mono {N : ℕ} {t0 h δ ε : ℝ} {σ : ℕ → CVal n ℝ} {κ : ℕ → Matrix (Fin m) (Fin n) ℝ × (Fin m → ℝ)}
    (H : BwNear S v G d N t0 h σ κ δ) (hδ : δ ≤ ε) : BwNear S v G d N t0 h σ κ ε :=
  ⟨fun k hk => ⟨fun i j => ((H.1 k hk).1 i j).trans hδ, fun i => ((H.1 k hk).2 i).trans hδ⟩,
    fun k hk => ⟨fun i j => ((H.2 k hk).1 i j).trans hδ, fun i => ((H.2 k hk).2 i).trans hδ⟩⟩

/-- The forward-backward computation over an interval. -/
theorem CLQT.fb_block (hD : P.FBData a b S v G d β Γ) (hab : a < b) : ∀ ε > 0, ∃ δ > 0, ∀ (N : ℕ) (h : ℝ) (s : CAbc n ℝ) (σ : ℕ → CVal n ℝ)
    (κ : ℕ → Matrix (Fin m) (Fin n) ℝ × (Fin m → ℝ)), 0 < h → h < δ → a + N * h = b → ANear s (0, β a, Γ a) δ → BwNear S v G d N a h σ κ δ →
    ∃ α, α 0 = s ∧ P.AbcSeq N h a α ∧ (∀ k ≤ N, (1 + (α k).2.2 * (σ k).1).det ≠ 0 ∧
        ∀ i, |fbState (σ k).1 (σ k).2 (α k).2.1 (α k).2.2 i - fbx S v β Γ (a + k * h) i| ≤ ε) ∧
      ∀ k < N, ∀ i, |(-(κ k).1 *ᵥ fbState (σ k).1 (σ k).2 (α k).2.1 (α k).2.2 + (κ k).2) i -
        (-(G (a + k * h)) *ᵥ fbx S v β Γ (a + k * h) + d (a + k * h)) i| ≤ ε := by
  intro ε hε
  have hx := fbState_cont hD.cS hD.cv hD.abc.contb hD.abc.contC hD.psd hD.abc.psd
  obtain ⟨δ1, hδ1, h1⟩ := ctl_near (x := fbx S v β Γ) hD.cG hD.cd hx hε
  obtain ⟨δ2, hδ2, h2⟩ := fb_near hD.cS hD.cv hD.abc.contb hD.abc.contC hD.psd hD.abc.psd (lt_min hε hδ1)
  obtain ⟨δ3, hδ3, h3⟩ := P.abc_converges hD.data hab hD.abc δ2 hδ2
  refine ⟨min δ3 (min δ1 δ2), lt_min hδ3 (lt_min hδ1 hδ2), fun N h s σ κ hh hhδ hN hs hb => ?_⟩
  obtain ⟨α, hα0, hα, hn⟩ := h3 N h s hh (hhδ.trans_le (min_le_left _ _)) hN (hs.mono (min_le_left _ _))
  have hmem : ∀ k ≤ N, a + k * h ∈ Icc a b := fun k hk => by
    have h1 := mul_nonneg (Nat.cast_nonneg (α := ℝ) k) hh.le
    have h2 : (k : ℝ) * h ≤ N * h := mul_le_mul_of_nonneg_right (by exact_mod_cast hk) hh.le
    constructor <;> linarith
  have hst : ∀ k ≤ N, _ := fun k hk => h2 _ (hmem k hk) (σ k).1 (σ k).2 (α k).2.1 (α k).2.2
    (fun i j => ((hb.1 k hk).1 i j).trans ((min_le_right _ _).trans (min_le_right _ _)))
    (fun i => ((hb.1 k hk).2 i).trans ((min_le_right _ _).trans (min_le_right _ _))) (hn k hk).b (hn k hk).C
  refine ⟨α, hα0, hα, fun k hk => ⟨(hst k hk).1, fun i => ((hst k hk).2 i).trans (min_le_left _ _)⟩, fun k hk => ?_⟩
  exact h1 _ (hmem k hk.le) _ _ _ (fun i j => ((hb.2 k hk).1 i j).trans ((min_le_right _ _).trans (min_le_left _ _)))
    (fun i => ((hb.2 k hk).2 i).trans ((min_le_right _ _).trans (min_le_left _ _))) (fun i => ((hst k hk.le).2 i).trans (min_le_right _ _))

theorem bwLists_near {bw : BwResult n m ℝ} {N : ℕ} {h δ : ℝ} (h1 : MatsNear bw.S_list (N + 1) h S δ) (h2 : VecsNear bw.v_list (N + 1) h v δ)
    (h3 : MatsNear bw.Kx_list N h G δ) (h4 : VecsNear bw.d_list N h d δ) : ∃ σ κ, bw = bwLists N σ κ ∧ BwNear S v G d N 0 h σ κ δ := by
  obtain ⟨σ, κ, rfl⟩ := exists_bwLists h3.1 h4.1 h1.1 h2.1
  refine ⟨σ, κ, rfl, fun k hk => ⟨fun i j => ?_, fun i => ?_⟩, fun k hk => ⟨fun i j => ?_, fun i => ?_⟩⟩
  · rw [zero_add]
    exact h1.2 k _ (by simp [bwLists, Nat.lt_succ_of_le hk]) i j
  · rw [zero_add]
    exact h2.2 k _ (by simp [bwLists, Nat.lt_succ_of_le hk]) i
  · rw [zero_add]
    exact h3.2 k _ (by simp [bwLists, hk]) i j
  · rw [zero_add]
    exact h4.2 k _ (by simp [bwLists, hk]) i

/-- The sequential forward-backward pass completes on backward results near the exact ones, and the combination is near the exact one. -/
theorem CLQT.fb_seq (h0 : 0 < P.T) (hD : P.FBData 0 P.T S v G d β Γ) (hΓ : Γ 0 = 0) : ∀ ε > 0, ∃ δ > 0, ∃ N0 : ℕ, 0 < N0 ∧ ∀ N ≥ N0, ∀ bw : BwResult n m ℝ,
    MatsNear bw.S_list (N + 1) (P.T / N) S δ → VecsNear bw.v_list (N + 1) (P.T / N) v δ → MatsNear bw.Kx_list N (P.T / N) G δ →
    VecsNear bw.d_list N (P.T / N) d δ → ∃ fw us xs, P.seqFwdBwdPass (β 0) N none none none none none = .ok fw ∧
      CLQT.combineForwardBackward bw fw = .ok (us, xs) ∧
      VecsNear us N (P.T / N) (fun t => -(G t) *ᵥ fbx S v β Γ t + d t) ε ∧ VecsNear xs (N + 1) (P.T / N) (fbx S v β Γ) ε := by
  intro ε hε
  obtain ⟨δ, hδ, hblk⟩ := P.fb_block hD h0 ε hε
  obtain ⟨N0, hN0, hs⟩ := exists_steps h0 hδ
  refine ⟨δ, hδ, N0, hN0, fun N hN bw h1 h2 h3 h4 => ?_⟩
  obtain ⟨hh, hhδ, hT⟩ := hs N hN
  obtain ⟨σ, κ, rfl, hb⟩ := bwLists_near h1 h2 h3 h4
  obtain ⟨α, hα0, hα, hx, hu⟩ := hblk N (P.T / N) (0, β 0, 0) σ κ hh hhδ hT
    ⟨fun i j => by simpa using hδ.le, fun i => by simpa using hδ.le, fun i j => by simpa [hΓ] using hδ.le⟩ hb
  simp only [zero_add] at hx hu
  exact ⟨_, _, _, CLQT.seqFwdBwd_ok.2 ⟨_, P.dtSeq_none (by omega), α, hα0, hα, rfl⟩, combineFB_total fun k hk => (hx k hk).1,
    vecsNear_map hu, vecsNear_map fun k hk => (hx k (by omega)).2⟩

/-! ### Prefixes -/

/-- Prefixes of elements near the exact ones are near the exact prefixes. -/
theorem prefix_near {B : ℕ} {E₀ W : ℕ → Elem n ℝ} (hd : ∀ q < B, (1 + (W q).C * (E₀ q).J).det ≠ 0)
    (hW : ∀ q < B, combT (W q) (E₀ q) = W (q + 1)) : ∀ ε > 0, ∃ δ > 0, ∀ E w : ℕ → Elem n ℝ, (∀ q < B, ENear (E q) (E₀ q) δ) → w 0 = W 0 →
      (∀ q < B, ∀ e, combineABCEJ (w q) (E q) = .ok e → w (q + 1) = e) → ∀ q ≤ B, ENear (w q) (W q) ε := by
  have key : ∀ j ≤ B, ∀ ε > 0, ∃ δ > 0, ∀ E w : ℕ → Elem n ℝ, (∀ q < B, ENear (E q) (E₀ q) δ) → w 0 = W 0 →
      (∀ q < B, ∀ e, combineABCEJ (w q) (E q) = .ok e → w (q + 1) = e) → ∀ q ≤ j, ENear (w q) (W q) ε := by
    intro j
    induction j with
    | zero =>
      intro _ ε hε
      refine ⟨1, one_pos, fun E w _ h2 _ q hq => ?_⟩
      obtain rfl : q = 0 := by omega
      rw [h2]
      exact ENear.refl _ hε.le
    | succ j ih =>
      intro hj ε hε
      have hq : j < B := by omega
      obtain ⟨δ1, h1, hδ1⟩ := ((comb_near (hd _ hq) hε).and self_mem_nhdsWithin).exists
      obtain ⟨δ2, hδ2, h2⟩ := ih (by omega) (min ε δ1) (lt_min hε hδ1)
      refine ⟨min δ1 δ2, lt_min hδ1 hδ2, fun E w hE hB hw q hqj => ?_⟩
      have hnear := h2 E w (fun q hq => (hE q hq).mono (min_le_right _ _)) hB hw
      rcases Nat.lt_or_ge j q with hlt | hge
      · obtain rfl : q = j + 1 := by omega
        obtain ⟨e, he, hn⟩ := h1 (w j) (E j) ((hnear j le_rfl).mono (min_le_right _ _)) ((hE _ hq).mono (min_le_left _ _))
        rw [hw _ hq e he, ← hW _ hq]
        exact hn
      · exact (hnear q hge).mono (min_le_left _ _)
  intro ε hε
  exact key B le_rfl ε hε

/-- The values of a list of prefixes. -/
theorem prefix_vals {B : ℕ} {E : ℕ → Elem n ℝ} {x0 : Fin n → ℝ} (hE : ∀ q < B, (E q).Sym) {el : List (Elem n ℝ)}
    (hel : scanVals combineABCEJ (⟨0, x0, 0, 0, 0⟩ :: (List.range B).map E) = .ok el) :
    ∃ w : ℕ → Elem n ℝ, el = (List.range (B + 1)).map w ∧ w 0 = ⟨0, x0, 0, 0, 0⟩ ∧ (∀ q ≤ B, w q = ⟨0, (w q).b, (w q).C, 0, 0⟩) ∧
      ∀ q < B, ∀ e, combineABCEJ (w q) (E q) = .ok e → w (q + 1) = e := by
  haveI : Inhabited (Elem n ℝ) := ⟨⟨0, 0, 0, 0, 0⟩⟩
  have hsym : ∀ e ∈ (⟨0, x0, 0, 0, 0⟩ : Elem n ℝ) :: (List.range B).map E, e.Sym := by
    intro e he
    rcases List.mem_cons.1 he with rfl | he
    · exact ⟨transpose_zero, transpose_zero⟩
    · obtain ⟨q, hq, rfl⟩ := List.mem_map.1 he
      exact hE q (List.mem_range.1 hq)
  obtain ⟨hlen, hpre⟩ := scanVals_prefix hel
  have hlen' : el.length = B + 1 := by simpa using hlen
  obtain ⟨w, hw⟩ := exists_seq el
  rw [hlen'] at hw
  have hwp : ∀ q ≤ B, Paren combineABCEJ (⟨0, x0, 0, 0, 0⟩ :: ((List.range B).map E).take q) (w q) := by
    intro q hq
    obtain ⟨v, hv, hp⟩ := hpre q (by simp; omega)
    rw [List.take_succ_cons] at hp
    rw [hw] at hv
    have hq' : q < B + 1 := by omega
    simp [hq'] at hv
    rw [hv]
    exact hp
  have hsymd : ∀ q, ∀ e ∈ (⟨0, x0, 0, 0, 0⟩ : Elem n ℝ) :: ((List.range B).map E).take q, e.Sym := by
    intro q e he
    apply hsym
    rcases List.mem_cons.1 he with rfl | he
    · simp
    · exact List.mem_cons.2 (.inr (List.mem_of_mem_take he))
  refine ⟨w, hw, ?_, fun q hq => paren_start (hwp q hq) (hsymd q), ?_⟩
  · exact paren_unique (hwp 0 (by omega)) (by simpa using Paren.single _) (hsymd 0)
  · intro q hq e he
    refine paren_unique (hwp (q + 1) hq) ?_ (hsymd (q + 1))
    have hd : ((List.range B).map E).take (q + 1) = ((List.range B).map E).take q ++ [E q] := by
      rw [List.take_add_one]
      simp [hq]
    rw [hd]
    exact Paren.node (hwp q hq.le) (.single (E q)) he

/-- The extraction completes if the sequential passes over the blocks do. -/
theorem CLQT.parFwdBwdExtract_total {B N : ℕ} {w : ℕ → Elem n ℝ} {dt t0 : ℝ} {σ : ℕ → CVal n ℝ} (hB : 0 < B)
    {κ : ℕ → Matrix (Fin m) (Fin n) ℝ × (Fin m → ℝ)} {α : ℕ → ℕ → CAbc n ℝ}
    (h : ∀ q < B, α q 0 = ((w q).A, (w q).b, (w q).C) ∧ P.AbcSeq N dt (t0 + q * N * dt) (α q) ∧
      ∀ k ≤ N, (1 + (α q k).2.2 * (σ (q * N + k)).1).det ≠ 0) :
    P.parFwdBwdExtract (bwLists (B * N) σ κ) ((List.range (B + 1)).map w) N (some dt) (some t0) = .ok
      (((List.range B).map fun q => (List.range N).map fun k => -(κ (q * N + k)).1 *ᵥ
          fbState (σ (q * N + k)).1 (σ (q * N + k)).2 (α q k).2.1 (α q k).2.2 + (κ (q * N + k)).2).flatten,
        ((List.range B).map fun q => (List.range N).map fun k =>
          fbState (σ (q * N + k)).1 (σ (q * N + k)).2 (α q k).2.1 (α q k).2.2).flatten ++
          [fbState (σ (B * N)).1 (σ (B * N)).2 (α (B - 1) N).2.1 (α (B - 1) N).2.2]) := by
  unfold CLQT.parFwdBwdExtract
  have hl1 : (bwLists (B * N) σ κ).Kx_list.length = B * N := by simp [bwLists]
  have hl2 : (bwLists (B * N) σ κ).S_list.length = B * N + 1 := by simp [bwLists]
  haveI : Inhabited (List ((Fin m → ℝ) × (Fin n → ℝ)) × List (Fin n → ℝ)) := ⟨([], [])⟩
  haveI : Inhabited ((Fin m → ℝ) × (Fin n → ℝ)) := ⟨0⟩
  simp only [List.length_map, List.length_range, Nat.add_sub_cancel, hl1, hl2, ne_eq, not_true_eq_false, if_false, Option.getD_some,
    P.dtPar_some, bind_ok, pure, Except.pure, Except.ok.injEq]
  refine ⟨dt, rfl, (List.range B).map fun q => ((List.range N).map fun k => (-(κ (q * N + k)).1 *ᵥ
          fbState (σ (q * N + k)).1 (σ (q * N + k)).2 (α q k).2.1 (α q k).2.2 + (κ (q * N + k)).2,
          fbState (σ (q * N + k)).1 (σ (q * N + k)).2 (α q k).2.1 (α q k).2.2), (List.range (N + 1)).map fun k =>
          fbState (σ (q * N + k)).1 (σ (q * N + k)).2 (α q k).2.1 (α q k).2.2), ?_, ?_⟩
  · refine mapM_seq.2 ⟨_, rfl, fun q hq => ?_⟩
    have hle : (q + 1) * N ≤ B * N := Nat.mul_le_mul_right _ hq
    have hsub : (q + 1) * N - q * N = N := by rw [Nat.succ_mul]; omega
    have hsub' : (q + 1) * N + 1 - q * N = N + 1 := by rw [Nat.succ_mul]; omega
    obtain ⟨e1, e2, e3⟩ := h q hq
    simp only [bind_ok]
    refine ⟨w q, pyGet_seq w (by omega), abcLists (N + 1) (α q), CLQT.seqFwdBwd_ok.2 ⟨dt, rfl, α q, e1, e2, rfl⟩, ?_⟩
    have hcomb := combineFB_total (σ := fun k => σ (q * N + k)) (κ := fun k => κ (q * N + k)) (α := α q) (N := N) e3
    have hsl : (⟨pySlice (bwLists (B * N) σ κ).Kx_list (q * N) ((q + 1) * N), pySlice (bwLists (B * N) σ κ).d_list (q * N) ((q + 1) * N),
        pySlice (bwLists (B * N) σ κ).S_list (q * N) ((q + 1) * N + 1), pySlice (bwLists (B * N) σ κ).v_list (q * N) ((q + 1) * N + 1)⟩ : BwResult n m ℝ) =
        bwLists N (fun k => σ (q * N + k)) (fun k => κ (q * N + k)) := by
      unfold bwLists
      simp only
      rw [pySlice_seq _ (Nat.mul_le_mul_right _ (Nat.le_succ q)) hle, pySlice_seq _ (Nat.mul_le_mul_right _ (Nat.le_succ q)) hle,
        pySlice_seq _ (by have := Nat.mul_le_mul_right N (Nat.le_succ q); omega) (by omega),
        pySlice_seq _ (by have := Nat.mul_le_mul_right N (Nat.le_succ q); omega) (by omega), hsub, hsub']
    refine ⟨_, by rw [hsl]; exact hcomb, ?_⟩
    simp only [List.length_map, List.length_range, bind_ok, Except.ok.injEq]
    refine ⟨_, mapM_seq.2 ⟨_, rfl, fun k hk => ?_⟩, rfl⟩
    simp only [bind_ok, Except.ok.injEq]
    exact ⟨_, pyGet_seq _ hk, _, pyGet_seq _ (by omega), rfl⟩
  · obtain ⟨B, rfl⟩ := Nat.exists_eq_succ_of_ne_zero hB.ne'
    have hlast := fun f : ℕ → List ((Fin m → ℝ) × (Fin n → ℝ)) × List (Fin n → ℝ) => pyLast_ok.1 (pyLast_seq f B)
    rw [hlast]
    simp only [pyLast_seq, bind_ok, Except.ok.injEq]
    refine ⟨_, rfl, ?_⟩
    simp only [List.map_flatten, List.map_map, Function.comp_def, Nat.succ_eq_add_one, Nat.add_sub_cancel, Nat.succ_mul]

/-- For a fixed number of blocks and enough steps the elements are near exact ones, and with prefixes in any order of combination the
extraction completes near the exact combination. -/
theorem CLQT.fbPar_core (h0 : 0 < P.T) (hD : P.FBData 0 P.T S v G d β Γ) (hΓ : Γ 0 = 0) (hX : ∀ t ∈ Icc 0 P.T, IsPSD (P.X t)) {B : ℕ} (hB : 0 < B)
    (forward : Bool) : ∃ K : Set (Elem n ℝ), K.Finite ∧ (∀ e ∈ K, e.PSD) ∧ ∀ ε > 0, ∃ δ > 0, ∃ N0 : ℕ, 0 < N0 ∧ ∀ N ≥ N0,
      ∃ E : ℕ → Elem n ℝ, (∀ q < B, P.blockElem forward N (P.T / N / B) 0 q = .ok (E q) ∧ (E q).Sym) ∧
        (∀ e ∈ (⟨0, β 0, 0, 0, 0⟩ : Elem n ℝ) :: (List.range B).map E, ∃ k ∈ K, ENear e k ε) ∧
        ∀ (w : ℕ → Elem n ℝ) (σ : ℕ → CVal n ℝ) (κ : ℕ → Matrix (Fin m) (Fin n) ℝ × (Fin m → ℝ)), w 0 = ⟨0, β 0, 0, 0, 0⟩ →
          (∀ q < B, ∀ e, combineABCEJ (w q) (E q) = .ok e → w (q + 1) = e) → BwNear S v G d (B * N) 0 (P.T / N / B) σ κ δ →
          ∃ us xs, P.parFwdBwdExtract (bwLists (B * N) σ κ) ((List.range (B + 1)).map w) N (some (P.T / N / B)) (some 0) = .ok (us, xs) ∧
            VecsNear us (B * N) (P.T / N / B) (fun t => -(G t) *ᵥ fbx S v β Γ t + d t) ε ∧
            VecsNear xs (B * N + 1) (P.T / N / B) (fbx S v β Γ) ε := by
  have hBr : (0 : ℝ) < B := by exact_mod_cast hB
  obtain ⟨τ, hτ⟩ : ∃ τ : ℕ → ℝ, τ = fun q : ℕ => (q : ℝ) * (P.T / B) := ⟨_, rfl⟩
  have hDt : 0 < P.T / B := div_pos h0 hBr
  have hτ0 : τ 0 = 0 := by simp [hτ]
  have hτB : τ B = P.T := by rw [hτ]; field_simp
  have hτs : ∀ q, τ (q + 1) = τ q + P.T / B := fun q => by rw [hτ]; push_cast; ring
  have hτ1 : ∀ q, 0 ≤ τ q := fun q => by rw [hτ]; positivity
  have hτ2 : ∀ q ≤ B, τ q ≤ P.T := fun q hq => by
    rw [← hτB, hτ]
    exact mul_le_mul_of_nonneg_right (by exact_mod_cast hq) hDt.le
  have hblock : ∀ q < B, P.FBData (τ q) (τ (q + 1)) S v G d β Γ ∧ τ q < τ (q + 1) ∧ Icc (τ q) (τ (q + 1)) ⊆ Icc 0 P.T :=
    fun q hq => ⟨hD.mono (hτ1 q) (hτ2 _ hq), by rw [hτs]; linarith, Icc_subset_Icc (hτ1 q) (hτ2 _ hq)⟩
  have hex : ∀ q, ∃ E₀ : Elem n ℝ, q < B → E₀.PSD ∧ combT ⟨0, β (τ q), Γ (τ q), 0, 0⟩ E₀ = ⟨0, β (τ (q + 1)), Γ (τ (q + 1)), 0, 0⟩ ∧
      ∀ ε > 0, ∃ δ > 0, ∀ (N : ℕ) (h t0 : ℝ) (k : ℕ), 0 < h → h < δ → t0 + (k * N : ℕ) * h = τ q → τ q + N * h = τ (q + 1) →
        ∃ E, P.blockElem forward N h t0 k = .ok E ∧ ENear E E₀ ε := by
    intro q
    by_cases hq : q < B
    · obtain ⟨h1, h2, h3⟩ := hblock q hq
      obtain ⟨E₀, hE⟩ := P.elem_start h1.data h2 (fun t ht => hX t (h3 ht)) forward h1.abc
      exact ⟨E₀, fun _ => hE⟩
    · exact ⟨⟨0, 0, 0, 0, 0⟩, fun h => absurd h hq⟩
  choose E₀ hE₀ using hex
  have hstart0 : (⟨0, β 0, 0, 0, 0⟩ : Elem n ℝ) = ⟨0, β (τ 0), Γ (τ 0), 0, 0⟩ := by rw [hτ0, hΓ]
  have hWp : ∀ q ≤ B, (⟨0, β (τ q), Γ (τ q), 0, 0⟩ : Elem n ℝ).PSD := fun q hq => ⟨hD.abc.psd _ ⟨hτ1 q, hτ2 q hq⟩, ⟨by simp, by simp⟩⟩
  refine ⟨(E₀ '' Iio B) ∪ {⟨0, β (τ 0), Γ (τ 0), 0, 0⟩}, ((finite_Iio B).image _).union (finite_singleton _), ?_, fun ε hε => ?_⟩
  · rintro e (⟨q, hq, rfl⟩ | rfl)
    · exact (hE₀ q hq).1
    · exact hWp 0 (Nat.zero_le _)
  -- passes over the blocks
  obtain ⟨δ1, hδ1, hseq⟩ := exists_common (p := fun q δ => ∀ (N : ℕ) (h : ℝ) (s : CAbc n ℝ) (σ : ℕ → CVal n ℝ)
      (κ : ℕ → Matrix (Fin m) (Fin n) ℝ × (Fin m → ℝ)), 0 < h → h < δ → τ q + N * h = τ (q + 1) → ANear s (0, β (τ q), Γ (τ q)) δ →
      BwNear S v G d N (τ q) h σ κ δ →
      ∃ α : ℕ → CAbc n ℝ, α 0 = s ∧ P.AbcSeq N h (τ q) α ∧ (∀ k ≤ N, (1 + (α k).2.2 * (σ k).1).det ≠ 0 ∧
          ∀ i, |fbState (σ k).1 (σ k).2 (α k).2.1 (α k).2.2 i - fbx S v β Γ (τ q + k * h) i| ≤ ε) ∧
        ∀ k < N, ∀ i, |(-(κ k).1 *ᵥ fbState (σ k).1 (σ k).2 (α k).2.1 (α k).2.2 + (κ k).2) i -
          (-(G (τ q + k * h)) *ᵥ fbx S v β Γ (τ q + k * h) + d (τ q + k * h)) i| ≤ ε)
    (fun q δ δ' _ hle H N h s σ κ h1 h2 h3 h4 h5 => H N h s σ κ h1 (h2.trans_le hle) h3 (h4.mono hle) (h5.mono hle)) B
    (fun q hq => P.fb_block (hblock q hq).1 (hblock q hq).2.1 ε hε)
  -- prefixes
  obtain ⟨δ2, hδ2, hpre⟩ := prefix_near (B := B) (E₀ := E₀) (W := fun q => ⟨0, β (τ q), Γ (τ q), 0, 0⟩)
    (fun q hq => det_one_add_ne_zero (hWp q hq.le).1 (hE₀ q hq).1.2) (fun q hq => (hE₀ q hq).2.1) δ1 hδ1
  -- elements
  obtain ⟨δ3, hδ3, hel⟩ := exists_common (p := fun q δ => ∀ (N : ℕ) (h t0 : ℝ) (k : ℕ), 0 < h → h < δ → t0 + (k * N : ℕ) * h = τ q →
      τ q + N * h = τ (q + 1) → ∃ E, P.blockElem forward N h t0 k = .ok E ∧ ENear E (E₀ q) (min ε δ2))
    (fun q δ δ' _ hle H N h t0 k h1 h2 => H N h t0 k h1 (h2.trans_le hle)) B (fun q hq => (hE₀ q hq).2.2 _ (lt_min hε hδ2))
  obtain ⟨N0, hN0, hsteps⟩ := exists_steps hDt (lt_min hδ1 hδ3)
  refine ⟨δ1, hδ1, N0, hN0, fun N hN => ?_⟩
  obtain ⟨s1, s2, s3⟩ := hsteps N hN
  have hh : P.T / N / B = P.T / B / N := by rw [div_div, div_div, mul_comm]
  rw [hh]
  obtain ⟨h, hhdef⟩ : ∃ h, h = P.T / B / N := ⟨_, rfl⟩
  rw [← hhdef] at s1 s2 s3 ⊢
  rw [zero_add] at s3
  have hgrid : ∀ q, τ q + N * h = τ (q + 1) := fun q => by rw [hτs, s3]
  have hstart : ∀ q : ℕ, ((q * N : ℕ) : ℝ) * h = τ q := fun q => by
    rw [hτ]
    dsimp only
    rw [← s3]
    push_cast
    ring
  have hEx : ∀ q, ∃ E, q < B → P.blockElem forward N h 0 q = .ok E ∧ ENear E (E₀ q) (min ε δ2) := by
    intro q
    by_cases hq : q < B
    · obtain ⟨E, hE⟩ := hel q hq N h 0 q s1 (s2.trans_le (min_le_right _ _)) (by rw [zero_add, hstart]) (hgrid q)
      exact ⟨E, fun _ => hE⟩
    · exact ⟨⟨0, 0, 0, 0, 0⟩, fun h => absurd h hq⟩
  choose E hE using hEx
  refine ⟨E, fun q hq => ⟨(hE q hq).1, CLQT.blockElem_sym (hE q hq).1⟩, ?_, fun w σ κ hw0 hw hb => ?_⟩
  · intro e he
    rcases List.mem_cons.1 he with rfl | he
    · exact ⟨_, .inr rfl, by rw [hstart0]; exact ENear.refl _ hε.le⟩
    · obtain ⟨q, hq, rfl⟩ := List.mem_map.1 he
      rw [List.mem_range] at hq
      exact ⟨E₀ q, .inl ⟨q, hq, rfl⟩, (hE q hq).2.mono (min_le_left _ _)⟩
  · have hwn := hpre E w (fun q hq => (hE q hq).2.mono (min_le_right _ _)) (hw0.trans hstart0) hw
    have htime : ∀ q k : ℕ, ((q * N + k : ℕ) : ℝ) * h = τ q + k * h := fun q k => by
      rw [Nat.cast_add, add_mul, hstart]
    have hblk : ∀ q, ∃ α : ℕ → CAbc n ℝ, q < B → (α 0 = ((w q).A, (w q).b, (w q).C) ∧ P.AbcSeq N h (τ q) α ∧
        (∀ k ≤ N, (1 + (α k).2.2 * (σ (q * N + k)).1).det ≠ 0 ∧
          ∀ i, |fbState (σ (q * N + k)).1 (σ (q * N + k)).2 (α k).2.1 (α k).2.2 i - fbx S v β Γ (τ q + k * h) i| ≤ ε) ∧
        ∀ k < N, ∀ i, |(-(κ (q * N + k)).1 *ᵥ fbState (σ (q * N + k)).1 (σ (q * N + k)).2 (α k).2.1 (α k).2.2 + (κ (q * N + k)).2) i -
          (-(G (τ q + k * h)) *ᵥ fbx S v β Γ (τ q + k * h) + d (τ q + k * h)) i| ≤ ε) := by
      intro q
      by_cases hq : q < B
      · have hle : (q + 1) * N ≤ B * N := Nat.mul_le_mul_right _ hq
        rw [Nat.succ_mul] at hle
        obtain ⟨α, hα⟩ := hseq q hq N h ((w q).A, (w q).b, (w q).C) (fun k => σ (q * N + k)) (fun k => κ (q * N + k)) s1
          (s2.trans_le (min_le_left _ _)) (hgrid q) ⟨(hwn q hq.le).A, (hwn q hq.le).b, (hwn q hq.le).C⟩
          ⟨fun k hk => by
            have := hb.1 (q * N + k) (by omega)
            rwa [zero_add, htime] at this, fun k hk => by
            have := hb.2 (q * N + k) (by omega)
            rwa [zero_add, htime] at this⟩
        exact ⟨α, fun _ => hα⟩
      · exact ⟨fun _ => 0, fun h => absurd h hq⟩
    choose α hα using hblk
    have hext := P.parFwdBwdExtract_total (B := B) (N := N) (w := w) (dt := h) (t0 := 0) (σ := σ) (κ := κ) (α := α) hB (fun q hq => by
      obtain ⟨h1, h2, h3, -⟩ := hα q hq
      have ht : (0 : ℝ) + q * N * h = τ q := by
        rw [← hstart]
        push_cast
        ring
      rw [ht]
      exact ⟨h1, h2, fun k hk => (h3 k hk).1⟩)
    refine ⟨_, _, hext, ?_, ?_⟩
    · rw [flatten_map B N fun q k => -(κ (q * N + k)).1 *ᵥ fbState (σ (q * N + k)).1 (σ (q * N + k)).2 (α q k).2.1 (α q k).2.2 + (κ (q * N + k)).2]
      refine vecsNear_map fun k hk => ?_
      obtain ⟨h1, h2, h3⟩ := list_near (by omega : 0 < N) k B hk
      have := (hα _ h1).2.2.2 _ h2
      rw [← htime, h3] at this
      rw [h3]
      exact this
    · rw [flatten_map B N fun q k => fbState (σ (q * N + k)).1 (σ (q * N + k)).2 (α q k).2.1 (α q k).2.2]
      refine ⟨by simp, fun k A hA => ?_⟩
      rcases Nat.lt_or_ge k (B * N) with hk | hk
      · rw [List.getElem?_append_left (by simpa using hk)] at hA
        simp only [List.getElem?_map, List.getElem?_range hk, Option.map_some, Option.some.injEq] at hA
        obtain ⟨h1, h2, h3⟩ := list_near (by omega : 0 < N) k B hk
        have := ((hα _ h1).2.2.1 _ h2.le).2
        rw [← htime, h3] at this
        rw [← hA, h3]
        exact this
      · rw [List.getElem?_append_right (by simpa using hk)] at hA
        simp only [List.length_map, List.length_range] at hA
        have hk' : k = B * N := by
          by_contra hne
          rw [List.getElem?_eq_none (by simp; omega)] at hA
          cases hA
        subst hk'
        simp only [Nat.sub_self, List.getElem?_cons_zero, Option.some.injEq] at hA
        have := ((hα (B - 1) (by omega)).2.2.1 N le_rfl).2
        have e : (B - 1) * N + N = B * N := by
          rw [← Nat.succ_mul]
          congr 1
          omega
        rw [← htime, e] at this
        rw [← hA]
        exact this

/-- The elements of the parallel forward-backward pass. -/
theorem CLQT.parFwdBwdInit_of {B N : ℕ} {E : ℕ → Elem n ℝ} {forward : Bool} {dt : ℝ} {x0 : Fin n → ℝ}
    (hE : ∀ q < B, P.blockElem forward N dt 0 q = .ok (E q)) :
    P.parFwdBwdInit x0 B N (some dt) (some 0) forward = .ok (⟨0, x0, 0, 0, 0⟩ :: (List.range B).map E) := by
  haveI : Inhabited (Elem n ℝ) := ⟨⟨0, 0, 0, 0, 0⟩⟩
  unfold CLQT.parFwdBwdInit
  simp only [bind_ok, pure, Except.pure, Except.ok.injEq, Option.getD_some]
  exact ⟨_, rfl, _, mapM_seq.2 ⟨E, rfl, hE⟩, rfl⟩

/-- The parallel forward-backward pass completes and converges. -/
theorem CLQT.fb_par (h0 : 0 < P.T) (hD : P.FBData 0 P.T S v G d β Γ) (hΓ : Γ 0 = 0) (hX : ∀ t ∈ Icc 0 P.T, IsPSD (P.X t)) {B : ℕ} (hB : 0 < B)
    (forward : Bool) : ∀ ε > 0, ∃ δ > 0, ∃ N0 : ℕ, 0 < N0 ∧ ∀ N ≥ N0, ∀ bw : BwResult n m ℝ,
    MatsNear bw.S_list (B * N + 1) (P.T / N / B) S δ → VecsNear bw.v_list (B * N + 1) (P.T / N / B) v δ → MatsNear bw.Kx_list (B * N) (P.T / N / B) G δ →
    VecsNear bw.d_list (B * N) (P.T / N / B) d δ → ∃ us xs, P.parFwdBwdPass (β 0) bw B N none none forward = .ok (us, xs) ∧
      VecsNear us (B * N) (P.T / N / B) (fun t => -(G t) *ᵥ fbx S v β Γ t + d t) ε ∧ VecsNear xs (B * N + 1) (P.T / N / B) (fbx S v β Γ) ε := by
  intro ε hε
  obtain ⟨K, hK, hKp, hcore⟩ := P.fbPar_core h0 hD hΓ hX hB forward
  obtain ⟨δ0, hδ0, hscan⟩ := scan_near hK hKp (B + 1)
  obtain ⟨δ, hδ, N0, hN0, h⟩ := hcore (min ε δ0) (lt_min hε hδ0)
  refine ⟨δ, hδ, N0, hN0, fun N hN bw h1 h2 h3 h4 => ?_⟩
  obtain ⟨E, hE, hnear, hw⟩ := h N hN
  obtain ⟨σ, κ, rfl, hb⟩ := bwLists_near h1 h2 h3 h4
  obtain ⟨el, hel⟩ := hscan (⟨0, β 0, 0, 0, 0⟩ :: (List.range B).map E) false (by simp) (by simp) (fun e he => by
      obtain ⟨k, hk, hn⟩ := hnear e he
      exact ⟨k, hk, hn.mono (min_le_right _ _)⟩)
  obtain ⟨w, rfl, hw0, -, hwc⟩ := prefix_vals (fun q hq => (hE q hq).2) hel
  obtain ⟨us, xs, hext, hu, hx⟩ := hw w σ κ hw0 hwc hb
  refine ⟨us, xs, ?_, ⟨hu.1, fun k A hA i => (hu.2 k A hA i).trans (min_le_left _ _)⟩,
    ⟨hx.1, fun k A hA i => (hx.2 k A hA i).trans (min_le_left _ _)⟩⟩
  unfold CLQT.parFwdBwdPass
  simp only [bind_ok, Option.getD_none]
  exact ⟨_, CLQT.dtPar_none_pos hB (by omega : 0 < N), _, CLQT.parFwdBwdInit_of fun q hq => (hE q hq).1, _, hel, hext⟩

/-- Scans of finite depth complete on the elements. -/
theorem CLQT.fbPar_scan (h0 : 0 < P.T) (hD : P.FBData 0 P.T S v G d β Γ) (hΓ : Γ 0 = 0) (hX : ∀ t ∈ Icc 0 P.T, IsPSD (P.X t)) {B : ℕ} (hB : 0 < B)
    (forward : Bool) (D : ℕ → ℕ) :
    ∃ N0 : ℕ, 0 < N0 ∧ ∀ N ≥ N0, ∀ {scan : (Elem n ℝ → Elem n ℝ → Py (Elem n ℝ)) → List (Elem n ℝ) → Py (List (Elem n ℝ))},
      HasDepth D scan → ∃ es, P.parFwdBwdInit (β 0) B N (some (P.T / N / B)) (some 0) forward = .ok es ∧
      ∃ rl, scan tfCombV es = .ok rl := by
  obtain ⟨K, hK, hKp, hcore⟩ := P.fbPar_core h0 hD hΓ hX hB forward
  obtain ⟨Gr, hG, δ, hδ, hGn⟩ := graded_near (D (B + 1)) hK hKp
  obtain ⟨_, _, N0, hN0, h⟩ := hcore δ hδ
  refine ⟨N0, hN0, fun N hN scan hD' => ?_⟩
  obtain ⟨E, hE, hnear, -⟩ := h N hN
  exact ⟨_, CLQT.parFwdBwdInit_of fun q hq => (hE q hq).1, hD' tfCombV _ Gr (by simp) hG.1
    (fun t ht x y hx hy => hG.2 t (by simpa using ht) x y hx hy) fun e he => hGn e (hnear e he)⟩

/-- The TensorFlow pass completes when the scan and the numpy pass do. -/
theorem CLQT.tfParFwdBwd_of (hU : ∀ t, (P.U t)ᵀ = P.U t ∧ IsPD (P.U t))
    {scan : (Elem n ℝ → Elem n ℝ → Py (Elem n ℝ)) → List (Elem n ℝ) → Py (List (Elem n ℝ))} (hsc : IsAssocScan scan)
    {blocks steps : ℕ} (hs : 0 < steps) {dt t0 : ℝ} {forward : Bool} {x0 : Fin n → ℝ} {es rl : List (Elem n ℝ)}
    (hes : P.parFwdBwdInit x0 blocks steps (some dt) (some t0) forward = .ok es) (hrl : scan tfCombV es = .ok rl) {bw : BwResult n m ℝ}
    (h1 : bw.Kx_list.length = blocks * steps) (h2 : bw.d_list.length = blocks * steps)
    (h3 : bw.S_list.length = blocks * steps + 1) (h4 : bw.v_list.length = blocks * steps + 1) {us : List (Fin m → ℝ)} {xs : List (Fin n → ℝ)}
    (h : P.parFwdBwdPass x0 bw blocks steps (some dt) (some t0) forward = .ok (us, xs)) :
    P.tfParFwdBwd scan blocks steps x0 bw dt t0 forward = .ok (xs, us) := by
  have hb : ∀ {α β : Type} (a : α) (f : α → Py β), ((Except.ok a : Py α) >>= f) = f a := fun _ _ => rfl
  obtain ⟨σ, κ, rfl⟩ := exists_bwLists h1 h2 h3 h4
  unfold CLQT.parFwdBwdPass at h
  simp only [bind_ok, Option.getD_some, P.dtPar_some, Except.ok.injEq] at h
  obtain ⟨_, rfl, es', hes', el, hel, hr⟩ := h
  rw [hes, Except.ok.injEq] at hes'
  subst hes'
  have hlen : es.length = blocks + 1 ∧ ∀ e ∈ es, e.Sym := by
    have hes2 := hes
    unfold CLQT.parFwdBwdInit at hes2
    simp only [bind_ok] at hes2
    obtain ⟨dt, -, l, hl, he⟩ := hes2
    obtain rfl := Except.ok.inj he
    haveI : Inhabited (Elem n ℝ) := ⟨⟨0, 0, 0, 0, 0⟩⟩
    obtain ⟨E, rfl, hE⟩ := mapM_seq.1 hl
    refine ⟨by simp, fun e he => ?_⟩
    rcases List.mem_cons.1 he with rfl | he
    · exact ⟨transpose_zero, transpose_zero⟩
    · obtain ⟨q, hq, rfl⟩ := List.mem_map.1 he
      exact CLQT.blockElem_sym (hE q (List.mem_range.1 hq))
  have heq := prefix_unique hsc hlen.2 hel hrl
  have hl : el.length = blocks + 1 := (scanVals_prefix hel).1.trans hlen.1
  haveI : Inhabited (Elem n ℝ) := ⟨⟨0, 0, 0, 0, 0⟩⟩
  obtain ⟨w, hw⟩ := exists_seq el
  rw [hl] at hw
  unfold CLQT.tfParFwdBwd
  obtain ⟨_, h5, rfl⟩ := (CLQT.solvRel_pd hU true).parFwdBwdInit forward blocks hs x0 dt t0 es hes
  rw [h5, hb, hrl, hb, heq]
  rw [hw] at hr ⊢
  exact CLQT.tfParFwdBwdExtract_eq (CLQT.solvRel_pd hU true) blocks hs σ κ w dt t0 hr

end

end Verif
