import Verif.Proof.CLQTElem
import Verif.Proof.CLQTTFPar
import Verif.Spec.ScanDepth

/-! Convergence of the parallel backward pass. -/

namespace Verif

open Set Matrix Filter Topology

variable {n m : ℕ} {a b : ℝ}

theorem CLQT.RicOn.mono {P : CLQT n m ℝ} {S : ℝ → Matrix (Fin n) (Fin n) ℝ} {v : ℝ → Fin n → ℝ} (h : P.RicOn a b S v) {a' b' : ℝ} (ha : a ≤ a')
    (hb : b' ≤ b) : P.RicOn a' b' S v :=
  ⟨fun i j => (h.contS i j).mono (Icc_subset_Icc ha hb), fun i => (h.contv i).mono (Icc_subset_Icc ha hb),
    fun t ht => h.sym t (Icc_subset_Icc ha hb ht), fun t ht => h.ode t (Ioo_subset_Ioo ha hb ht)⟩

/-- The exact element of a block for both directions of integration. -/
theorem CLQT.elem_exists {P : CLQT n m ℝ} (hP : P.ContData a b) (hab : a < b) (hX : ∀ t ∈ Icc a b, IsPSD (P.X t)) (forward : Bool)
    {S : ℝ → Matrix (Fin n) (Fin n) ℝ} {v : ℝ → Fin n → ℝ} (hR : P.RicOn a b S v) (hS : ∀ t ∈ Icc a b, IsPSD (S t)) :
    ∃ E₀ : Elem n ℝ, E₀.PSD ∧ combT E₀ ⟨0, 0, 0, v b, S b⟩ = ⟨0, 0, 0, v a, S a⟩ ∧
      ∀ ε > 0, ∃ δ > 0, ∀ (N : ℕ) (h t0 : ℝ) (k : ℕ), 0 < h → h < δ → t0 + (k * N : ℕ) * h = a → a + N * h = b →
        ∃ E, P.blockElem forward N h t0 k = .ok E ∧ ENear E E₀ ε := by
  cases forward with
  | false =>
    obtain ⟨e, he, heb⟩ := P.elBw_exists hP hab.le hX
    exact ⟨e a, he.psd a (left_mem_Icc.2 hab.le), P.elBw_value hP hab.le he heb hR hS, P.elBw_converges hP hab he heb⟩
  | true =>
    obtain ⟨e, he, hea⟩ := P.elFw_exists hP hab.le hX
    exact ⟨e b, he.psd b (right_mem_Icc.2 hab.le), P.elFw_value hP hab.le hX he hea hR hS, P.elFw_converges hP hab he hea⟩

theorem exists_common {p : ℕ → ℝ → Prop} (mono : ∀ q δ δ', 0 < δ → δ ≤ δ' → p q δ' → p q δ) : ∀ B : ℕ, (∀ q < B, ∃ δ > 0, p q δ) →
    ∃ δ > 0, ∀ q < B, p q δ
  | 0, _ => ⟨1, one_pos, fun q hq => absurd hq (Nat.not_lt_zero q)⟩
  | B + 1, h => by
    obtain ⟨δ, hδ, h1⟩ := exists_common mono B fun q hq => h q (by omega)
    obtain ⟨δ', hδ', h2⟩ := h B (by omega)
    refine ⟨min δ δ', lt_min hδ hδ', fun q hq => ?_⟩
    rcases Nat.lt_succ_iff_lt_or_eq.1 hq with hq | rfl
    · exact mono q _ _ (lt_min hδ hδ') (min_le_left _ _) (h1 q hq)
    · exact mono q _ _ (lt_min hδ hδ') (min_le_right _ _) h2

/-- Suffixes of elements near the exact ones are near the exact value functions. -/
theorem suffix_near {B : ℕ} {E₀ W : ℕ → Elem n ℝ} (hd : ∀ q < B, (1 + (E₀ q).C * (W (q + 1)).J).det ≠ 0)
    (hW : ∀ q < B, combT (E₀ q) (W (q + 1)) = W q) : ∀ ε > 0, ∃ δ > 0, ∀ E w : ℕ → Elem n ℝ, (∀ q < B, ENear (E q) (E₀ q) δ) → w B = W B →
      (∀ q < B, ∀ e, combineABCEJ (E q) (w (q + 1)) = .ok e → w q = e) → ∀ q ≤ B, ENear (w q) (W q) ε := by
  have key : ∀ j ≤ B, ∀ ε > 0, ∃ δ > 0, ∀ E w : ℕ → Elem n ℝ, (∀ q < B, ENear (E q) (E₀ q) δ) → w B = W B →
      (∀ q < B, ∀ e, combineABCEJ (E q) (w (q + 1)) = .ok e → w q = e) → ∀ q ≤ B, B ≤ q + j → ENear (w q) (W q) ε := by
    intro j
    induction j with
    | zero =>
      intro _ ε hε
      refine ⟨1, one_pos, fun E w _ h2 _ q hq hq' => ?_⟩
      obtain rfl : q = B := by omega
      rw [h2]
      exact ENear.refl _ hε.le
    | succ j ih =>
      intro hj ε hε
      have hq : B - (j + 1) < B := by omega
      obtain ⟨δ1, h1, hδ1⟩ := ((comb_near (hd _ hq) hε).and self_mem_nhdsWithin).exists
      obtain ⟨δ2, hδ2, h2⟩ := ih (by omega) (min ε δ1) (lt_min hε hδ1)
      refine ⟨min δ1 δ2, lt_min hδ1 hδ2, fun E w hE hB hw q hqB hqj => ?_⟩
      have hnear := h2 E w (fun q hq => (hE q hq).mono (min_le_right _ _)) hB hw
      rcases Nat.lt_or_ge (q + j) B with hlt | hge
      · obtain rfl : q = B - (j + 1) := by omega
        obtain ⟨e, he, hn⟩ := h1 (E _) (w (B - (j + 1) + 1)) ((hE _ hq).mono (min_le_left _ _))
          ((hnear (B - (j + 1) + 1) (by omega) (by omega)).mono (min_le_right _ _))
        rw [hw _ hq e he, ← hW _ hq]
        exact hn
      · exact (hnear q hqB hge).mono (min_le_left _ _)
  intro ε hε
  obtain ⟨δ, hδ, h⟩ := key B le_rfl ε hε
  exact ⟨δ, hδ, fun E w h1 h2 h3 q hq => h E w h1 h2 h3 q hq (by omega)⟩

/-- The values of a list of suffixes. -/
theorem suffix_vals {B : ℕ} {E : ℕ → Elem n ℝ} {v : Fin n → ℝ} {S : Matrix (Fin n) (Fin n) ℝ} (hS : Sᵀ = S) (hE : ∀ q < B, (E q).Sym)
    {el : List (Elem n ℝ)} (hlen : el.length = B + 1)
    (hsuf : ∀ q < B + 1, ∃ w, el[q]? = some w ∧ Paren combineABCEJ (((List.range B).map E ++ [(⟨0, 0, 0, v, S⟩ : Elem n ℝ)]).drop q) w) :
    ∃ w : ℕ → Elem n ℝ, el = (List.range (B + 1)).map w ∧ w B = ⟨0, 0, 0, v, S⟩ ∧
      (∀ q ≤ B, w q = ⟨0, 0, 0, (w q).eta, (w q).J⟩ ∧ (w q).Sym) ∧ ∀ q < B, ∀ e, combineABCEJ (E q) (w (q + 1)) = .ok e → w q = e := by
  haveI : Inhabited (Elem n ℝ) := ⟨⟨0, 0, 0, 0, 0⟩⟩
  set term : Elem n ℝ := ⟨0, 0, 0, v, S⟩ with hterm
  have htsym : term.Sym := ⟨transpose_zero, hS⟩
  obtain ⟨w, hw⟩ := exists_seq el
  rw [hlen] at hw
  have hwp : ∀ q ≤ B, Paren combineABCEJ (((List.range B).map E).drop q ++ [term]) (w q) := by
    intro q hq
    obtain ⟨x, hx, hp⟩ := hsuf q (by omega)
    rw [List.drop_append_of_le_length (by simpa using hq)] at hp
    rw [hw] at hx
    have hq' : q < B + 1 := by omega
    simp [hq'] at hx
    rw [hx]
    exact hp
  have hsymd : ∀ q, ∀ e ∈ ((List.range B).map E).drop q ++ [term], e.Sym := by
    intro q e he
    rcases List.mem_append.1 he with he | he
    · obtain ⟨q, hq, rfl⟩ := List.mem_map.1 (List.mem_of_mem_drop he)
      exact hE q (List.mem_range.1 hq)
    · rw [List.mem_singleton.1 he]
      exact htsym
  refine ⟨w, hw, ?_, fun q hq => ⟨paren_value (hwp q hq) (hsymd q), (paren_rel (hwp q hq) (hsymd q)).1⟩, fun q hq e he => ?_⟩
  · have := hwp B le_rfl
    rw [List.drop_eq_nil_of_le (by simp), List.nil_append] at this
    exact paren_unique this (.single _) (by intro e he; rw [List.mem_singleton.1 he]; exact htsym)
  · refine paren_unique (hwp q hq.le) ?_ (hsymd q)
    have hd : ((List.range B).map E).drop q = E q :: ((List.range B).map E).drop (q + 1) := by
      rw [List.drop_eq_getElem_cons (by simpa using hq)]
      simp
    rw [hd]
    have := Paren.node (.single (E q)) (hwp (q + 1) hq) he
    simpa using this

/-- The extraction completes if the sequential passes over the blocks do. -/
theorem CLQT.parBackwardExtract_total {P : CLQT n m ℝ} {B steps : ℕ} {w : ℕ → Elem n ℝ} {dt t0 : ℝ} {σ : ℕ → ℕ → CVal n ℝ}
    {κ : ℕ → ℕ → Matrix (Fin m) (Fin n) ℝ × (Fin m → ℝ)}
    (h : ∀ q < B, σ q steps = ((w (q + 1)).J, (w (q + 1)).eta) ∧ P.BwSeq steps dt (t0 + q * dt * steps) (σ q) (κ q)) :
    P.parBackwardExtract ((List.range (B + 1)).map w) steps (some dt) (some t0) = .ok
      ⟨((List.range B).map fun q => (List.range steps).map fun i => (κ q i).1).flatten,
        ((List.range B).map fun q => (List.range steps).map fun i => (κ q i).2).flatten,
        (w 0).J :: ((List.range B).map fun q => (List.range steps).map fun i => (σ q (i + 1)).1).flatten,
        (w 0).eta :: ((List.range B).map fun q => (List.range steps).map fun i => (σ q (i + 1)).2).flatten⟩ := by
  unfold CLQT.parBackwardExtract
  haveI : Inhabited (List (Matrix (Fin m) (Fin n) ℝ × (Fin m → ℝ) × Matrix (Fin n) (Fin n) ℝ × (Fin n → ℝ))) := ⟨[]⟩
  haveI : Inhabited (Matrix (Fin m) (Fin n) ℝ × (Fin m → ℝ) × Matrix (Fin n) (Fin n) ℝ × (Fin n → ℝ)) := ⟨0⟩
  simp only [List.length_map, List.length_range, Nat.add_sub_cancel, bind_ok, pure, Except.pure, Except.ok.injEq, Option.getD_some]
  refine ⟨dt, rfl, w 0, pyGet_seq w (by omega), (List.range B).map fun q => (List.range steps).map fun i =>
      ((κ q i).1, (κ q i).2, (σ q (i + 1)).1, (σ q (i + 1)).2), ?_, ?_⟩
  · refine mapM_seq.2 ⟨_, rfl, fun q hq => ?_⟩
    simp only [bind_ok]
    refine ⟨w (q + 1), pyGet_seq w (by omega), bwLists steps (σ q) (κ q), CLQT.seqBackward_ok.2 ⟨dt, rfl, σ q, κ q, (h q hq).1, (h q hq).2, rfl⟩, ?_⟩
    simp only [bwLists, List.length_map, List.length_range]
    refine mapM_seq.2 ⟨_, rfl, fun i hi => ?_⟩
    simp only [bind_ok, Except.ok.injEq]
    exact ⟨_, pyGet_seq _ (by omega), _, pyGet_seq _ (by omega), _, pyGet_seq _ hi, _, pyGet_seq _ hi, rfl⟩
  · simp only [List.map_flatten, List.map_map, Function.comp_def]

/-- Grid of the parallel pass. -/
theorem CLQT.dtPar_none_pos {P : CLQT n m ℝ} {B N : ℕ} (hB : 0 < B) (hN : 0 < N) : P.dtPar B N none = .ok (P.T / N / B) := by
  simp [CLQT.dtPar, pyDiv, hB.ne', hN.ne', Bind.bind, Except.bind]

theorem list_near {p : ℕ} (hp : 0 < p) (k B : ℕ) (hk : k < B * p) : k / p < B ∧ k % p < p ∧ k / p * p + k % p = k :=
  ⟨(Nat.div_lt_iff_lt_mul hp).2 hk, Nat.mod_lt _ hp, by rw [mul_comm]; exact Nat.div_add_mod k p⟩

theorem flatten_map {β : Type} (B s : ℕ) (f : ℕ → ℕ → β) :
    ((List.range B).map fun q => (List.range s).map fun i => f q i).flatten = (List.range (B * s)).map fun j => f (j / s) (j % s) := by
  rw [← seq_blocks (fun j => f (j / s) (j % s)) s B]
  congr 1
  refine seq_congr fun q _ => seq_congr fun i hi => ?_
  have hs : 0 < s := by omega
  have e1 : (q * s + i) / s = q := by
    rw [mul_comm, Nat.mul_add_div hs, Nat.div_eq_of_lt hi, add_zero]
  have e2 : (q * s + i) % s = i := by
    rw [mul_comm, Nat.mul_add_mod, Nat.mod_eq_of_lt hi]
  rw [e1, e2]

/-- For a fixed number of blocks and enough steps the elements are near the exact ones, the values of all suffixes are near the exact value
functions, whatever order of combination is used, and the sequential passes over the blocks complete with values, gains and offsets near the exact ones. -/
theorem CLQT.parBw_core {P : CLQT n m ℝ} (h0 : 0 < P.T) (hP : P.ContData 0 P.T) (hX : ∀ t ∈ Icc 0 P.T, IsPSD (P.X t)) (hXT : IsPSD P.XT)
    {S : ℝ → Matrix (Fin n) (Fin n) ℝ} {v : ℝ → Fin n → ℝ} (hR : P.IsRiccati 0 S v) {B : ℕ} (hB : 0 < B) (forward : Bool) :
    ∃ K : Set (Elem n ℝ), K.Finite ∧ (∀ e ∈ K, e.PSD) ∧ ∀ ε > 0, ∃ N0 : ℕ, 0 < N0 ∧ ∀ N ≥ N0,
      ∃ E : ℕ → Elem n ℝ, (∀ q < B, P.blockElem forward N (P.T / N / B) 0 q = .ok (E q) ∧ (E q).Sym) ∧
        (∀ e ∈ (List.range B).map E ++ [⟨0, 0, 0, (P.HTᵀ * P.XT) *ᵥ P.rT, P.HTᵀ * P.XT * P.HT⟩], ∃ k ∈ K, ENear e k ε) ∧
        ∀ w : ℕ → Elem n ℝ, w B = ⟨0, 0, 0, (P.HTᵀ * P.XT) *ᵥ P.rT, P.HTᵀ * P.XT * P.HT⟩ →
          (∀ q < B, ∀ e, combineABCEJ (E q) (w (q + 1)) = .ok e → w q = e) →
          ((∀ i j, |(w 0).J i j - S 0 i j| ≤ ε) ∧ ∀ i, |(w 0).eta i - v 0 i| ≤ ε) ∧
          ∃ (σ : ℕ → ℕ → CVal n ℝ) (κ : ℕ → ℕ → Matrix (Fin m) (Fin n) ℝ × (Fin m → ℝ)),
            (∀ q < B, σ q N = ((w (q + 1)).J, (w (q + 1)).eta) ∧ P.BwSeq N (P.T / N / B) (0 + q * (P.T / N / B) * N) (σ q) (κ q)) ∧
            ∀ q < B, (∀ k ≤ N, (∀ i j, |(σ q k).1 i j - S ((q * N + k : ℕ) * (P.T / N / B)) i j| ≤ ε) ∧
              ∀ i, |(σ q k).2 i - v ((q * N + k : ℕ) * (P.T / N / B)) i| ≤ ε) ∧
              ∀ k < N, (∀ i j, |(κ q k).1 i j - P.gain S ((q * N + k : ℕ) * (P.T / N / B)) i j| ≤ ε) ∧
                ∀ i, |(κ q k).2 i - P.offset v ((q * N + k : ℕ) * (P.T / N / B)) i| ≤ ε := by
  have hBr : (0 : ℝ) < B := by exact_mod_cast hB
  have hRic := hR.ricOn h0 hP
  have hSp : ∀ t ∈ Icc 0 P.T, IsPSD (S t) := by
    obtain ⟨S', v', hR', hS', hv', hp⟩ := P.ric_exists hP h0.le hX (hxh_psd hXT P.HT) ((P.HTᵀ * P.XT) *ᵥ P.rT)
    intro t ht
    rw [(CLQT.RicOn.unique hP hRic hR' (hR.termS.trans hS'.symm) (hR.termv.trans hv'.symm) t ht).1]
    exact hp t ht
  -- the grid of the blocks
  obtain ⟨τ, hτ⟩ : ∃ τ : ℕ → ℝ, τ = fun q : ℕ => (q : ℝ) * (P.T / B) := ⟨_, rfl⟩
  have hD : 0 < P.T / B := div_pos h0 hBr
  have hτ0 : τ 0 = 0 := by simp [hτ]
  have hτB : τ B = P.T := by rw [hτ]; field_simp
  have hτs : ∀ q, τ (q + 1) = τ q + P.T / B := fun q => by rw [hτ]; push_cast; ring
  have hτ1 : ∀ q, 0 ≤ τ q := fun q => by rw [hτ]; positivity
  have hτ2 : ∀ q ≤ B, τ q ≤ P.T := fun q hq => by
    rw [← hτB, hτ]
    exact mul_le_mul_of_nonneg_right (by exact_mod_cast hq) hD.le
  have hblock : ∀ q < B, P.ContData (τ q) (τ (q + 1)) ∧ τ q < τ (q + 1) ∧ Icc (τ q) (τ (q + 1)) ⊆ Icc 0 P.T ∧ P.RicOn (τ q) (τ (q + 1)) S v :=
    fun q hq => ⟨hP.mono (hτ1 q) (hτ2 _ hq), by rw [hτs]; linarith, Icc_subset_Icc (hτ1 q) (hτ2 _ hq), hRic.mono (hτ1 q) (hτ2 _ hq)⟩
  have hex : ∀ q, ∃ E₀ : Elem n ℝ, q < B → E₀.PSD ∧ combT E₀ ⟨0, 0, 0, v (τ (q + 1)), S (τ (q + 1))⟩ = ⟨0, 0, 0, v (τ q), S (τ q)⟩ ∧
      ∀ ε > 0, ∃ δ > 0, ∀ (N : ℕ) (h t0 : ℝ) (k : ℕ), 0 < h → h < δ → t0 + (k * N : ℕ) * h = τ q → τ q + N * h = τ (q + 1) →
        ∃ E, P.blockElem forward N h t0 k = .ok E ∧ ENear E E₀ ε := by
    intro q
    by_cases hq : q < B
    · obtain ⟨h1, h2, h3, h4⟩ := hblock q hq
      obtain ⟨E₀, hE⟩ := P.elem_exists h1 h2 (fun t ht => hX t (h3 ht)) forward h4 (fun t ht => hSp t (h3 ht))
      exact ⟨E₀, fun _ => hE⟩
    · exact ⟨⟨0, 0, 0, 0, 0⟩, fun h => absurd h hq⟩
  choose E₀ hE₀ using hex
  have hterm : (⟨0, 0, 0, (P.HTᵀ * P.XT) *ᵥ P.rT, P.HTᵀ * P.XT * P.HT⟩ : Elem n ℝ) = ⟨0, 0, 0, v (τ B), S (τ B)⟩ := by
    rw [hτB, hR.termS, hR.termv]
  have hWp : ∀ q ≤ B, (⟨0, 0, 0, v (τ q), S (τ q)⟩ : Elem n ℝ).PSD := fun q hq => ⟨⟨by simp, by simp⟩, hSp _ ⟨hτ1 q, hτ2 q hq⟩⟩
  refine ⟨(E₀ '' Iio B) ∪ {⟨0, 0, 0, v (τ B), S (τ B)⟩}, ((finite_Iio B).image _).union (finite_singleton _), ?_, fun ε hε => ?_⟩
  · rintro e (⟨q, hq, rfl⟩ | rfl)
    · exact (hE₀ q hq).1
    · exact hWp B le_rfl
  -- sequential passes over the blocks
  obtain ⟨δ1, hδ1, hseq⟩ := exists_common (p := fun q δ => ∀ (N : ℕ) (h : ℝ) (s : CVal n ℝ), 0 < h → h < δ → τ q + N * h = τ (q + 1) →
      (∀ i j, |s.1 i j - S (τ (q + 1)) i j| ≤ δ) → (∀ i, |s.2 i - v (τ (q + 1)) i| ≤ δ) →
      ∃ (σ : ℕ → CVal n ℝ) (κ : ℕ → Matrix (Fin m) (Fin n) ℝ × (Fin m → ℝ)), σ N = s ∧ P.BwSeq N h (τ q) σ κ ∧
        (∀ k ≤ N, (∀ i j, |(σ k).1 i j - S (τ q + k * h) i j| ≤ ε) ∧ ∀ i, |(σ k).2 i - v (τ q + k * h) i| ≤ ε) ∧
        ∀ k < N, (∀ i j, |(κ k).1 i j - P.gain S (τ q + k * h) i j| ≤ ε) ∧ ∀ i, |(κ k).2 i - P.offset v (τ q + k * h) i| ≤ ε)
    (fun q δ δ' _ hle H N h s h1 h2 h3 h4 h5 => H N h s h1 (h2.trans_le hle) h3 (fun i j => (h4 i j).trans hle) (fun i => (h5 i).trans hle)) B
    (fun q hq => P.bw_converges_gain (hblock q hq).1 (hblock q hq).2.1 (hblock q hq).2.2.2 ε hε)
  -- suffixes
  obtain ⟨δ2, hδ2, hsuf⟩ := suffix_near (B := B) (E₀ := E₀) (W := fun q => ⟨0, 0, 0, v (τ q), S (τ q)⟩)
    (fun q hq => det_one_add_ne_zero (hE₀ q hq).1.1 (hWp (q + 1) hq).2) (fun q hq => (hE₀ q hq).2.1) (min ε δ1) (lt_min hε hδ1)
  -- elements
  obtain ⟨δ3, hδ3, hel⟩ := exists_common (p := fun q δ => ∀ (N : ℕ) (h t0 : ℝ) (k : ℕ), 0 < h → h < δ → t0 + (k * N : ℕ) * h = τ q →
      τ q + N * h = τ (q + 1) → ∃ E, P.blockElem forward N h t0 k = .ok E ∧ ENear E (E₀ q) (min ε δ2))
    (fun q δ δ' _ hle H N h t0 k h1 h2 => H N h t0 k h1 (h2.trans_le hle)) B (fun q hq => (hE₀ q hq).2.2 _ (lt_min hε hδ2))
  obtain ⟨N0, hN0, hsteps⟩ := exists_steps hD (lt_min hδ1 hδ3)
  refine ⟨N0, hN0, fun N hN => ?_⟩
  obtain ⟨s1, s2, s3⟩ := hsteps N hN
  have hNr : (0 : ℝ) < N := by exact_mod_cast (by omega : 0 < N)
  have hh : P.T / N / B = P.T / B / N := by rw [div_div, div_div, mul_comm]
  rw [hh]
  obtain ⟨h, hhdef⟩ : ∃ h, h = P.T / B / N := ⟨_, rfl⟩
  rw [← hhdef] at s1 s2 s3 ⊢
  rw [zero_add] at s3
  have hgrid : ∀ q, τ q + N * h = τ (q + 1) := fun q => by rw [hτs, s3]
  have hstart : ∀ q : ℕ, ((q * N : ℕ) : ℝ) * h = τ q := fun q => by
    rw [hτ]
    dsimp only
    rw [← s3]
    push_cast
    ring
  have hEx : ∀ q, ∃ E, q < B → P.blockElem forward N h 0 q = .ok E ∧ ENear E (E₀ q) (min ε δ2) := by
    intro q
    by_cases hq : q < B
    · obtain ⟨E, hE⟩ := hel q hq N h 0 q s1 (s2.trans_le (min_le_right _ _)) (by rw [zero_add, hstart]) (hgrid q)
      exact ⟨E, fun _ => hE⟩
    · exact ⟨⟨0, 0, 0, 0, 0⟩, fun h => absurd h hq⟩
  choose E hE using hEx
  refine ⟨E, fun q hq => ⟨(hE q hq).1, CLQT.blockElem_sym (hE q hq).1⟩, ?_, fun w hwB hw => ?_⟩
  · intro e he
    rcases List.mem_append.1 he with he | he
    · obtain ⟨q, hq, rfl⟩ := List.mem_map.1 he
      rw [List.mem_range] at hq
      exact ⟨E₀ q, .inl ⟨q, hq, rfl⟩, (hE q hq).2.mono (min_le_left _ _)⟩
    · rw [List.mem_singleton.1 he, hterm]
      exact ⟨_, .inr rfl, ENear.refl _ hε.le⟩
  · have hwn := hsuf E w (fun q hq => (hE q hq).2.mono (min_le_right _ _)) (hwB.trans hterm) hw
    refine ⟨⟨fun i j => ?_, fun i => ?_⟩, ?_⟩
    · have := (hwn 0 (Nat.zero_le _)).J i j
      rw [hτ0] at this
      exact this.trans (min_le_left _ _)
    · have := (hwn 0 (Nat.zero_le _)).eta i
      rw [hτ0] at this
      exact this.trans (min_le_left _ _)
    have hblk : ∀ q, ∃ σκ : (ℕ → CVal n ℝ) × (ℕ → Matrix (Fin m) (Fin n) ℝ × (Fin m → ℝ)), q < B →
        (σκ.1 N = ((w (q + 1)).J, (w (q + 1)).eta) ∧ P.BwSeq N h (τ q) σκ.1 σκ.2 ∧
        (∀ k ≤ N, (∀ i j, |(σκ.1 k).1 i j - S (τ q + k * h) i j| ≤ ε) ∧ ∀ i, |(σκ.1 k).2 i - v (τ q + k * h) i| ≤ ε) ∧
        ∀ k < N, (∀ i j, |(σκ.2 k).1 i j - P.gain S (τ q + k * h) i j| ≤ ε) ∧ ∀ i, |(σκ.2 k).2 i - P.offset v (τ q + k * h) i| ≤ ε) := by
      intro q
      by_cases hq : q < B
      · obtain ⟨σ, κ, hσ⟩ := hseq q hq N h ((w (q + 1)).J, (w (q + 1)).eta) s1 (s2.trans_le (min_le_left _ _)) (hgrid q)
          (fun i j => ((hwn (q + 1) hq).J i j).trans (min_le_right _ _)) (fun i => ((hwn (q + 1) hq).eta i).trans (min_le_right _ _))
        exact ⟨(σ, κ), fun _ => hσ⟩
      · exact ⟨(fun _ => 0, fun _ => 0), fun h => absurd h hq⟩
    choose σκ hσκ using hblk
    have htime : ∀ q k : ℕ, ((q * N + k : ℕ) : ℝ) * h = τ q + k * h := fun q k => by
      rw [Nat.cast_add, add_mul, hstart]
    refine ⟨fun q => (σκ q).1, fun q => (σκ q).2, fun q hq => ⟨(hσκ q hq).1, ?_⟩, fun q hq => ?_⟩
    · have ht : (0 : ℝ) + q * h * N = τ q := by
        rw [← hstart]
        push_cast
        ring
      rw [ht]
      exact (hσκ q hq).2.1
    · simp only [htime]
      exact (hσκ q hq).2.2

/-- The result of the parallel backward pass from the values of the blocks. -/
theorem parBw_near {S : ℝ → Matrix (Fin n) (Fin n) ℝ} {v : ℝ → Fin n → ℝ} {G : ℝ → Matrix (Fin m) (Fin n) ℝ} {d : ℝ → Fin m → ℝ} {B N : ℕ} {h ε : ℝ}
    (hN : 0 < N) {w0 : Elem n ℝ} {σ : ℕ → ℕ → CVal n ℝ} {κ : ℕ → ℕ → Matrix (Fin m) (Fin n) ℝ × (Fin m → ℝ)}
    (h0 : (∀ i j, |w0.J i j - S 0 i j| ≤ ε) ∧ ∀ i, |w0.eta i - v 0 i| ≤ ε)
    (hn : ∀ q < B, (∀ k ≤ N, (∀ i j, |(σ q k).1 i j - S ((q * N + k : ℕ) * h) i j| ≤ ε) ∧ ∀ i, |(σ q k).2 i - v ((q * N + k : ℕ) * h) i| ≤ ε) ∧
      ∀ k < N, (∀ i j, |(κ q k).1 i j - G ((q * N + k : ℕ) * h) i j| ≤ ε) ∧ ∀ i, |(κ q k).2 i - d ((q * N + k : ℕ) * h) i| ≤ ε) :
    MatsNear (w0.J :: ((List.range B).map fun q => (List.range N).map fun i => (σ q (i + 1)).1).flatten) (B * N + 1) h S ε ∧
    VecsNear (w0.eta :: ((List.range B).map fun q => (List.range N).map fun i => (σ q (i + 1)).2).flatten) (B * N + 1) h v ε ∧
    MatsNear ((List.range B).map fun q => (List.range N).map fun i => (κ q i).1).flatten (B * N) h G ε ∧
    VecsNear ((List.range B).map fun q => (List.range N).map fun i => (κ q i).2).flatten (B * N) h d ε := by
  rw [flatten_map B N fun q i => (κ q i).1, flatten_map B N fun q i => (κ q i).2, flatten_map B N fun q i => (σ q (i + 1)).1,
    flatten_map B N fun q i => (σ q (i + 1)).2]
  refine ⟨⟨by simp, fun k A hA => ?_⟩, ⟨by simp, fun k A hA => ?_⟩, matsNear_map fun k hk => ?_, vecsNear_map fun k hk => ?_⟩
  · cases k with
    | zero =>
      rw [List.getElem?_cons_zero, Option.some.injEq] at hA
      rw [← hA, Nat.cast_zero, zero_mul]
      exact h0.1
    | succ k =>
      rw [List.getElem?_cons_succ] at hA
      have hk : k < B * N := by
        by_contra hk
        rw [List.getElem?_eq_none (by simpa using hk)] at hA
        simp at hA
      obtain ⟨h1, h2, h3⟩ := list_near hN k B hk
      simp only [List.getElem?_map, List.getElem?_range hk, Option.map_some, Option.some.injEq] at hA
      have := ((hn _ h1).1 (k % N + 1) (by omega)).1
      rw [← add_assoc, h3] at this
      rw [← hA]
      exact this
  · cases k with
    | zero =>
      rw [List.getElem?_cons_zero, Option.some.injEq] at hA
      rw [← hA, Nat.cast_zero, zero_mul]
      exact h0.2
    | succ k =>
      rw [List.getElem?_cons_succ] at hA
      have hk : k < B * N := by
        by_contra hk
        rw [List.getElem?_eq_none (by simpa using hk)] at hA
        simp at hA
      obtain ⟨h1, h2, h3⟩ := list_near hN k B hk
      simp only [List.getElem?_map, List.getElem?_range hk, Option.map_some, Option.some.injEq] at hA
      have := ((hn _ h1).1 (k % N + 1) (by omega)).2
      rw [← add_assoc, h3] at this
      rw [← hA]
      exact this
  · obtain ⟨h1, h2, h3⟩ := list_near hN k B hk
    have := ((hn _ h1).2 (k % N) h2).1
    rwa [h3] at this
  · obtain ⟨h1, h2, h3⟩ := list_near hN k B hk
    have := ((hn _ h1).2 (k % N) h2).2
    rwa [h3] at this

/-- The parallel backward pass completes and converges. -/
theorem CLQT.parBw_lists {P : CLQT n m ℝ} (h0 : 0 < P.T) (hP : P.ContData 0 P.T) (hX : ∀ t ∈ Icc 0 P.T, IsPSD (P.X t)) (hXT : IsPSD P.XT)
    {S : ℝ → Matrix (Fin n) (Fin n) ℝ} {v : ℝ → Fin n → ℝ} (hR : P.IsRiccati 0 S v) {B : ℕ} (hB : 0 < B) (forward : Bool) :
    ∀ ε > 0, ∃ N0 : ℕ, 0 < N0 ∧ ∀ N ≥ N0, ∃ r, P.parBackwardPass B N none none forward = .ok r ∧
      MatsNear r.S_list (B * N + 1) (P.T / N / B) S ε ∧ VecsNear r.v_list (B * N + 1) (P.T / N / B) v ε ∧
      MatsNear r.Kx_list (B * N) (P.T / N / B) (P.gain S) ε ∧ VecsNear r.d_list (B * N) (P.T / N / B) (P.offset v) ε := by
  intro ε hε
  obtain ⟨K, hK, hKp, hcore⟩ := P.parBw_core h0 hP hX hXT hR hB forward
  obtain ⟨δ, hδ, hscan⟩ := scan_near hK hKp (B + 1)
  obtain ⟨N0, hN0, h⟩ := hcore (min ε δ) (lt_min hε hδ)
  refine ⟨N0, hN0, fun N hN => ?_⟩
  obtain ⟨E, hE, hnear, hw⟩ := h N hN
  obtain ⟨el, hel⟩ := hscan ((List.range B).map E ++ [⟨0, 0, 0, (P.HTᵀ * P.XT) *ᵥ P.rT, P.HTᵀ * P.XT * P.HT⟩]) true (by simp) (by simp)
    (fun e he => by
      obtain ⟨k, hk, hn⟩ := hnear e he
      exact ⟨k, hk, hn.mono (min_le_right _ _)⟩)
  obtain ⟨hlen, hsuf⟩ := scanVals_suffix hel
  obtain ⟨w, rfl, hwB, -, hwc⟩ := suffix_vals (hxh_psd hXT P.HT).1 (fun q hq => (hE q hq).2) (by simpa using hlen) (fun q hq => by
    obtain ⟨x, h1, h2⟩ := hsuf q (by simp; omega)
    exact ⟨x, h1, h2⟩)
  obtain ⟨hw0, σ, κ, hσ, hn⟩ := hw w hwB hwc
  have hdt := CLQT.dtPar_none_pos (P := P) hB (by omega : 0 < N)
  have hext := P.parBackwardExtract_total hσ
  haveI : Inhabited (Elem n ℝ) := ⟨⟨0, 0, 0, 0, 0⟩⟩
  have hinit : P.parBackwardInit B N (some (P.T / N / B)) (some 0) forward =
      .ok ((List.range B).map E ++ [⟨0, 0, 0, (P.HTᵀ * P.XT) *ᵥ P.rT, P.HTᵀ * P.XT * P.HT⟩]) := by
    unfold CLQT.parBackwardInit
    simp only [bind_ok, pure, Except.pure, Except.ok.injEq, Option.getD_some]
    exact ⟨_, rfl, _, mapM_seq.2 ⟨E, rfl, fun q hq => (hE q hq).1⟩, rfl⟩
  have hpass : ∀ r, P.parBackwardExtract ((List.range (B + 1)).map w) N (some (P.T / N / B)) (some 0) = .ok r →
      P.parBackwardPass B N none none forward = .ok r := fun r hr => by
    unfold CLQT.parBackwardPass
    simp only [bind_ok, Option.getD_none]
    exact ⟨_, hdt, _, hinit, _, hel, hr⟩
  refine ⟨_, hpass _ hext, parBw_near (w0 := w 0) (σ := σ) (κ := κ) (by omega) ⟨fun i j => (hw0.1 i j).trans (min_le_left _ _), fun i => (hw0.2 i).trans (min_le_left _ _)⟩
    (fun q hq => ⟨fun k hk => ⟨fun i j => (((hn q hq).1 k hk).1 i j).trans (min_le_left _ _), fun i => (((hn q hq).1 k hk).2 i).trans (min_le_left _ _)⟩,
      fun k hk => ⟨fun i j => (((hn q hq).2 k hk).1 i j).trans (min_le_left _ _), fun i => (((hn q hq).2 k hk).2 i).trans (min_le_left _ _)⟩⟩)⟩

/-- Scans of finite depth complete on the elements. -/
theorem CLQT.parBw_scan {P : CLQT n m ℝ} (h0 : 0 < P.T) (hP : P.ContData 0 P.T) (hX : ∀ t ∈ Icc 0 P.T, IsPSD (P.X t)) (hXT : IsPSD P.XT)
    {S : ℝ → Matrix (Fin n) (Fin n) ℝ} {v : ℝ → Fin n → ℝ} (hR : P.IsRiccati 0 S v) {B : ℕ} (hB : 0 < B) (forward : Bool)
    (D : ℕ → ℕ) :
    ∃ N0 : ℕ, 0 < N0 ∧ ∀ N ≥ N0, ∀ {scan : (Elem n ℝ → Elem n ℝ → Py (Elem n ℝ)) → List (Elem n ℝ) → Py (List (Elem n ℝ))},
      HasDepth D scan → ∃ es, P.parBackwardInit B N (some (P.T / N / B)) (some 0) forward = .ok es ∧ (∀ e ∈ es, e.Sym) ∧
      ∃ rl, scan tfCombVRev es.reverse = .ok rl := by
  obtain ⟨K, hK, hKp, hcore⟩ := P.parBw_core h0 hP hX hXT hR hB forward
  obtain ⟨G, hG, δ, hδ, hGn⟩ := graded_near (D (B + 1)) hK hKp
  obtain ⟨N0, hN0, h⟩ := hcore δ hδ
  refine ⟨N0, hN0, fun N hN scan hD => ?_⟩
  obtain ⟨E, hE, hnear, -⟩ := h N hN
  haveI : Inhabited (Elem n ℝ) := ⟨⟨0, 0, 0, 0, 0⟩⟩
  have hinit : P.parBackwardInit B N (some (P.T / N / B)) (some 0) forward =
      .ok ((List.range B).map E ++ [⟨0, 0, 0, (P.HTᵀ * P.XT) *ᵥ P.rT, P.HTᵀ * P.XT * P.HT⟩]) := by
    unfold CLQT.parBackwardInit
    simp only [bind_ok, pure, Except.pure, Except.ok.injEq, Option.getD_some]
    exact ⟨_, rfl, _, mapM_seq.2 ⟨E, rfl, fun q hq => (hE q hq).1⟩, rfl⟩
  refine ⟨_, hinit, fun e he => ?_, hD tfCombVRev _ G (by simp) hG.1 (fun t ht x y hx hy => hG.2 t (by simpa using ht) y x hy hx)
    fun e he => hGn e (hnear e (List.mem_reverse.1 he))⟩
  rcases List.mem_append.1 he with he | he
  · obtain ⟨q, hq, rfl⟩ := List.mem_map.1 he
    exact (hE q (List.mem_range.1 hq)).2
  · rw [List.mem_singleton.1 he]
    exact ⟨transpose_zero, (hxh_psd hXT P.HT).1⟩

/-- The TensorFlow pass completes when the scan and the numpy pass do. -/
theorem CLQT.tfParBackward_of {P : CLQT n m ℝ} (hU : ∀ t, (P.U t)ᵀ = P.U t ∧ IsPD (P.U t))
    {scan : (Elem n ℝ → Elem n ℝ → Py (Elem n ℝ)) → List (Elem n ℝ) → Py (List (Elem n ℝ))} (hsc : IsAssocScan scan)
    {blocks steps : ℕ} (hs : 0 < steps) {dt t0 : ℝ} {forward : Bool} {es rl : List (Elem n ℝ)}
    (hes : P.parBackwardInit blocks steps (some dt) (some t0) forward = .ok es) (hsym : ∀ e ∈ es, e.Sym)
    (hrl : scan tfCombVRev es.reverse = .ok rl) {r : BwResult n m ℝ}
    (h : P.parBackwardPass blocks steps (some dt) (some t0) forward = .ok r) :
    P.tfParBackward scan blocks steps dt t0 (P.HTᵀ * (P.XT * P.HT)) (P.HTᵀ *ᵥ (P.XT *ᵥ P.rT)) forward = .ok r := by
  have hb : ∀ {α β : Type} (a : α) (f : α → Py β), ((Except.ok a : Py α) >>= f) = f a := fun _ _ => rfl
  unfold CLQT.parBackwardPass at h
  simp only [bind_ok, Option.getD_some, P.dtPar_some, Except.ok.injEq] at h
  obtain ⟨_, rfl, es', hes', el, hel, hr⟩ := h
  rw [hes, Except.ok.injEq] at hes'
  subst hes'
  have heq := suffix_unique hsc hsym hel hrl
  have hlen : es.length = blocks + 1 := by
    unfold CLQT.parBackwardInit at hes
    simp only [bind_ok, Option.getD_some, P.dtPar_some, Except.ok.injEq, pure, Except.pure] at hes
    obtain ⟨_, -, l, hl, rfl⟩ := hes
    haveI : Inhabited (Elem n ℝ) := ⟨⟨0, 0, 0, 0, 0⟩⟩
    obtain ⟨E, rfl, -⟩ := mapM_seq.1 hl
    simp
  have hl : el.length = blocks + 1 := (scanVals_suffix hel).1.trans hlen
  haveI : Inhabited (Elem n ℝ) := ⟨⟨0, 0, 0, 0, 0⟩⟩
  obtain ⟨w, hw⟩ := exists_seq el
  rw [hl] at hw
  unfold CLQT.tfParBackward
  obtain ⟨_, h1, rfl⟩ := (CLQT.solvRel_pd hU true).parBackwardInit forward blocks hs dt t0 es hes
  rw [h1, hb, hrl, hb, heq]
  rw [hw] at hr ⊢
  obtain ⟨_, h3, rfl⟩ := (CLQT.solvRel_pd hU true).parBackwardExtract w blocks steps dt t0 r hr
  exact h3

theorem scanVals_finite {α : Type} : IsFiniteScan fun (op : α → α → Py α) l => scanVals op l :=
  ⟨scanOps, fun op l P hne h1 h2 hl => scanVals_graded (N := scanOps l.length) ⟨h1, h2⟩ hne le_rfl hl false⟩

/-- The forward pass on gains and offsets near those of a feedback law. -/
theorem CLQT.fw_lists {P : CLQT n m ℝ} (h0 : 0 < P.T) (hP : P.ContData 0 P.T) {G : ℝ → Matrix (Fin m) (Fin n) ℝ} {d : ℝ → Fin m → ℝ}
    {x : ℝ → Fin n → ℝ} (hG : ∀ i j, ContinuousOn (fun t => G t i j) (Icc 0 P.T)) (hd : ∀ i, ContinuousOn (fun t => d t i) (Icc 0 P.T))
    (hxc : ∀ i, ContinuousOn (fun t => x t i) (Icc 0 P.T)) (hxd : ∀ t ∈ Ioo 0 P.T, ∀ i, HasDerivAt (fun s => x s i) (P.fwG (G t) (d t) (x t) (x t) t i) t)
    (z : Bool) : ∀ ε > 0, ∃ δ > 0, ∃ N0 : ℕ, 0 < N0 ∧ ∀ N ≥ N0, ∀ Ks ds, MatsNear Ks N (P.T / N) G δ → VecsNear ds N (P.T / N) d δ →
      ∃ us xs, P.seqForwardPass (x 0) Ks ds none none z = .ok (us, xs) ∧
        VecsNear us N (P.T / N) (fun t => -(G t) *ᵥ x t + d t) ε ∧ VecsNear xs (N + 1) (P.T / N) x ε := by
  intro ε hε
  obtain ⟨δ, hδ, hfw⟩ := P.fw_converges hP h0 hG hd hxc hxd z ε hε
  obtain ⟨N0, hN0, hs⟩ := exists_steps h0 hδ
  refine ⟨δ, hδ, N0, hN0, fun N hN Ks ds hK hD => ?_⟩
  obtain ⟨hh, hhδ, hT⟩ := hs N hN
  haveI : Inhabited (Matrix (Fin m) (Fin n) ℝ) := ⟨0⟩
  obtain ⟨K, rK⟩ := exists_seq Ks
  obtain ⟨D, rD⟩ := exists_seq ds
  rw [hK.1] at rK
  rw [hD.1] at rD
  obtain ⟨ξ, hξ0, hseq, hnx, hnu⟩ := hfw N (P.T / N) (x 0) (fun k => (K k, D k)) hh hhδ hT (fun i => by simpa using hδ.le)
    (fun k hk => ⟨fun i j => by
      rw [zero_add]
      exact hK.2 k (K k) (by rw [rK]; simp [hk]) i j, fun i => by
      rw [zero_add]
      exact hD.2 k (D k) (by rw [rD]; simp [hk]) i⟩)
  simp only [zero_add] at hnx hnu
  refine ⟨_, _, ?_, vecsNear_map hnu, vecsNear_map fun k hk => hnx k (by omega)⟩
  rw [rK, rD]
  exact (CLQT.seqForward_ok (κ := fun k => (K k, D k))).2 ⟨_, P.dtSeq_none (by omega), ξ, hξ0, hseq, rfl⟩

end Verif
