import Verif.Proof.CLQTFwd
import Verif.Proof.CLQTParConv
import Verif.Proof.CLQTExist

/-! The parallel forward pass of the continuous-time tracker with a zero-order hold. -/

namespace Verif

open Matrix

variable {n m : ℕ}

section CharZero
variable {K : Type} [Field K] [LinearOrder K] [CharZero K]

omit [CharZero K] in
theorem CLQT.exists_fwSeq (P : CLQT n m K) (z : Bool) (N : ℕ) (dt t0 : K) (κ : ℕ → Matrix (Fin m) (Fin n) K × (Fin m → K)) (x : Fin n → K) :
    ∃ η, η 0 = x ∧ P.FwSeq z N dt t0 κ η := by
  choose f hf using fun (k : ℕ) y => P.fwF_total z dt (t0 + k * dt) (κ k) y
  exact ⟨fun k => Nat.rec x (fun k y => f k y) k, rfl, fun k _ => hf k _⟩

/-- The blocks of the parallel forward pass start from the states of the sequential pass without hold. -/
theorem CLQT.parForward_blocks (P : CLQT n m K) (x0 : Fin n → K) (κ : ℕ → Matrix (Fin m) (Fin n) K × (Fin m → K)) (B steps : ℕ)
    (odt t0 : Option K) (forward z : Bool) {dt : K} (hdt : P.dtSeq (B * steps) odt = .ok dt) {ξ : ℕ → Fin n → K} (hξ0 : ξ 0 = x0)
    (hξ : P.FwSeq false (B * steps) dt (t0.getD 0) κ ξ) {η : ℕ → ℕ → Fin n → K} (hη0 : ∀ k < B, η k 0 = ξ (k * steps))
    (hη : ∀ k < B, P.FwSeq z steps dt (t0.getD 0 + k * steps * dt) (fun i => κ (k * steps + i)) (η k)) :
    P.parForwardPass x0 (gainLists (B * steps) κ).1 (gainLists (B * steps) κ).2 B steps odt t0 forward z =
      .ok (((List.range B).map fun k => (List.range steps).map fun i => -(κ (k * steps + i)).1 *ᵥ η k i + (κ (k * steps + i)).2).flatten,
        ((List.range B).map fun k => (List.range steps).map fun i => η k i).flatten ++ [ξ (B * steps)]) := by
  have hlen : (gainLists (B * steps) κ).1.length = B * steps := by simp [gainLists]
  have hx := P.affSeq_fwSeq (B * steps) dt (t0.getD 0) κ x0
  have huniq : ∀ k ≤ B * steps, affSeq (fun k => P.stepE dt (t0.getD 0 + k * dt) (κ k)) x0 k = ξ k := hx.unique hξ hξ0.symm
  unfold CLQT.parForwardPass
  dsimp only
  rw [P.dtPar_eq, hdt]
  choose! E hE1 hE2 using fun k (hk : k < B) => P.psiElem_ok forward (B := B) (steps := steps) κ dt (t0.getD 0) hk
  have hinit : P.parForwardInit x0 (gainLists (B * steps) κ).1 (gainLists (B * steps) κ).2 B steps (some dt)
      (some (t0.getD 0)) forward = .ok ((1, x0) :: (List.range B).map E) := by
    unfold CLQT.parForwardInit
    dsimp only
    have : Inhabited (Matrix (Fin n) (Fin n) K × (Fin n → K)) := ⟨0⟩
    simp only [P.dtPar_some, hlen, ne_eq, not_true, if_false, Option.getD_some]
    simp only [bind_ok, pure, Except.pure, Except.ok.injEq]
    exact ⟨dt, rfl, _, mapM_seq.2 ⟨E, rfl, hE1⟩, rfl⟩
  obtain ⟨el, hsc⟩ := scanVals_total fc_closed (a := (1, x0) :: (List.range B).map E) (by simp) (fun _ _ => trivial) false
  obtain ⟨hl, hp⟩ := scanVals_prefix hsc
  have hell : el.length = B + 1 := by simpa using hl
  have hsnd : ∀ k ≤ B, ∃ v, el[k]? = some v ∧ v.2 = ξ (k * steps) := by
    intro k hk
    obtain ⟨v, hv, hpar⟩ := hp k (by simp; omega)
    refine ⟨v, hv, ?_⟩
    have h1 := paren_aff hpar 0
    rw [List.take_succ_cons, List.foldl_cons] at h1
    have e1 : ((List.range B).map E).take k = (List.range k).map E := by
      rw [← List.map_take, List.take_range, Nat.min_eq_left hk]
    rw [e1, foldl_aff_seq, show aff (1, x0) (0 : Fin n → K) = x0 by simp [aff]] at h1
    rw [show aff v 0 = v.2 by simp [aff]] at h1
    rw [h1, affSeq_blocks (e := fun k => P.stepE dt (t0.getD 0 + k * dt) (κ k)) (fun k hk => hE2 k hk) x0 k hk,
      huniq _ (Nat.mul_le_mul_right _ hk)]
  have hslice : ∀ k < B, P.seqForwardPass (ξ (k * steps)) (pySlice (gainLists (B * steps) κ).1 (k * steps) ((k + 1) * steps))
      (pySlice (gainLists (B * steps) κ).2 (k * steps) ((k + 1) * steps)) (some dt)
      (some (t0.getD 0 + k * steps * dt)) z =
      .ok ((List.range steps).map fun i => -(κ (k * steps + i)).1 *ᵥ η k i + (κ (k * steps + i)).2,
        (List.range (steps + 1)).map fun i => η k i) := by
    intro k hk
    have hle : k * steps + steps ≤ B * steps := by
      calc k * steps + steps = (k + 1) * steps := by ring
        _ ≤ B * steps := Nat.mul_le_mul_right _ hk
    rw [Nat.succ_mul]
    unfold gainLists
    rw [pySlice_gain κ Prod.fst hle, pySlice_gain κ Prod.snd hle]
    exact (CLQT.seqForward_ok (κ := fun i => κ (k * steps + i))).2 ⟨dt, rfl, η k, hη0 k hk, hη k hk, rfl⟩
  have hext : P.parForwardExtract (gainLists (B * steps) κ).1 (gainLists (B * steps) κ).2 el steps (some dt) (some (t0.getD 0)) z =
      .ok (((List.range B).map fun k => (List.range steps).map fun i => -(κ (k * steps + i)).1 *ᵥ η k i + (κ (k * steps + i)).2).flatten,
        ((List.range B).map fun k => (List.range steps).map fun i => η k i).flatten ++ [ξ (B * steps)]) := by
    unfold CLQT.parForwardExtract
    dsimp only
    rw [hell]
    have : Inhabited (List ((Fin m → K) × (Fin n → K))) := ⟨[]⟩
    have : Inhabited ((Fin m → K) × (Fin n → K)) := ⟨0⟩
    simp only [P.dtPar_some, hlen, Nat.add_sub_cancel, ne_eq, not_true, if_false, Option.getD_some]
    simp only [bind_ok, pure, Except.pure, Except.ok.injEq]
    obtain ⟨vB, hvB, hvB2⟩ := hsnd B le_rfl
    refine ⟨dt, rfl, (List.range B).map fun k => (List.range steps).map fun i =>
      (-(κ (k * steps + i)).1 *ᵥ η k i + (κ (k * steps + i)).2, η k i),
      mapM_seq.2 ⟨_, rfl, fun k hk => ?_⟩, vB, ?_, ?_⟩
    · obtain ⟨v, hv, hv2⟩ := hsnd k hk.le
      simp only [bind_ok]
      refine ⟨v, by rw [pyGet_eq, hv], _, by rw [hv2]; exact hslice k hk, ?_⟩
      simp only [List.length_map, List.length_range]
      refine mapM_seq.2 ⟨_, rfl, fun i hi => ?_⟩
      simp only [bind_ok]
      exact ⟨_, pyGet_seq _ hi, _, pyGet_seq _ (by omega), rfl⟩
    · rw [pyLast_ok, List.getLast?_eq_getElem?, hell]
      exact hvB
    · refine Prod.ext ?_ ?_
      · simp only
        rw [List.map_flatten, List.map_map]
        congr 1
        refine List.map_congr_left fun k _ => ?_
        simp
      · simp only
        rw [List.map_flatten, List.map_map, hvB2]
        congr 2
        refine List.map_congr_left fun k _ => ?_
        simp
  show (do let elems ← P.parForwardInit x0 _ _ B steps (some dt) (some (t0.getD 0)) forward; _) = _
  rw [hinit]
  show (do let elems ← scanVals _ _; _) = _
  rw [hsc]
  exact hext

/-- The same with one sequence of states `χ`. -/
theorem CLQT.parForward_seq (P : CLQT n m K) (x0 : Fin n → K) (κ : ℕ → Matrix (Fin m) (Fin n) K × (Fin m → K)) (B : ℕ) {steps : ℕ}
    (hs : 0 < steps) (odt t0 : Option K) (forward z : Bool) {dt : K} (hdt : P.dtSeq (B * steps) odt = .ok dt) {ξ : ℕ → Fin n → K} (hξ0 : ξ 0 = x0)
    (hξ : P.FwSeq false (B * steps) dt (t0.getD 0) κ ξ) {η : ℕ → ℕ → Fin n → K} (hη0 : ∀ k < B, η k 0 = ξ (k * steps))
    (hη : ∀ k < B, P.FwSeq z steps dt (t0.getD 0 + k * steps * dt) (fun i => κ (k * steps + i)) (η k)) :
    P.parForwardPass x0 (gainLists (B * steps) κ).1 (gainLists (B * steps) κ).2 B steps odt t0 forward z =
      .ok ((List.range (B * steps)).map fun j => -(κ j).1 *ᵥ η (j / steps) (j % steps) + (κ j).2,
        (List.range (B * steps + 1)).map fun j => if j < B * steps then η (j / steps) (j % steps) else ξ j) := by
  rw [P.parForward_blocks x0 κ B steps odt t0 forward z hdt hξ0 hξ hη0 hη, flatten_map B steps (fun k i => -(κ (k * steps + i)).1 *ᵥ η k i + (κ (k * steps + i)).2), flatten_map]
  congr 2
  · refine seq_congr fun j hj => ?_
    rw [(list_near hs j B hj).2.2]
  · rw [List.range_succ, List.map_append]
    congr 1
    · exact seq_congr fun j hj => (if_pos hj).symm
    · simp

end CharZero

theorem exists_min_pos {f : ℕ → ℝ} : ∀ {B : ℕ}, (∀ k < B, 0 < f k) → ∃ δ > 0, ∀ k < B, δ ≤ f k
  | 0, _ => ⟨1, one_pos, fun k hk => absurd hk (by omega)⟩
  | B + 1, h => by
    obtain ⟨δ, hδ, hk⟩ := exists_min_pos (B := B) fun k hk => h k (by omega)
    refine ⟨min δ (f B), lt_min hδ (h B (by omega)), fun k hk' => ?_⟩
    rcases Nat.lt_succ_iff_lt_or_eq.1 hk' with h1 | rfl
    · exact (min_le_left _ _).trans (hk k h1)
    · exact min_le_right _ _

open Set in
/-- The lists of the parallel forward pass converge, for both values of `u_zoh`. -/
theorem CLQT.parFw_lists {P : CLQT n m ℝ} (h0 : 0 < P.T) (hP : P.ContData 0 P.T) {G : ℝ → Matrix (Fin m) (Fin n) ℝ} {d : ℝ → Fin m → ℝ}
    (hG : ∀ i j, ContinuousOn (fun t => G t i j) (Icc 0 P.T)) (hdc : ∀ i, ContinuousOn (fun t => d t i) (Icc 0 P.T)) {x : ℝ → Fin n → ℝ}
    (hxc : ∀ i, ContinuousOn (fun t => x t i) (Icc 0 P.T))
    (hxd : ∀ t ∈ Ioo 0 P.T, ∀ i, HasDerivAt (fun s => x s i) (P.fwG (G t) (d t) (x t) (x t) t i) t) (z : Bool) {B : ℕ} (hB : 0 < B) :
    ∀ ε > 0, ∃ δ > 0, ∃ N0 > 0, ∀ steps ≥ N0, ∀ Ks ds, MatsNear Ks (B * steps) (P.T / (B * steps : ℕ)) G δ →
      VecsNear ds (B * steps) (P.T / (B * steps : ℕ)) d δ → ∀ forward, ∃ us xs,
      P.parForwardPass (x 0) Ks ds B steps none none forward z = .ok (us, xs) ∧
      VecsNear us (B * steps) (P.T / (B * steps : ℕ)) (fun t => -(G t) *ᵥ x t + d t) ε ∧
      VecsNear xs (B * steps + 1) (P.T / (B * steps : ℕ)) x ε := by
  intro ε hε
  have hBR : (0 : ℝ) < B := by exact_mod_cast hB
  set c := P.T / B with hc
  have hc0 : 0 < c := div_pos h0 hBR
  have hBc : B * c = P.T := by rw [hc]; field_simp
  have hle : ∀ k < B, 0 ≤ k * c ∧ (k + 1) * c ≤ P.T := fun k hk => by
    have h1 : ((k + 1 : ℕ) : ℝ) ≤ B := by exact_mod_cast hk
    push_cast at h1
    exact ⟨by positivity, by rw [← hBc]; exact mul_le_mul_of_nonneg_right h1 hc0.le⟩
  have hfwb : ∀ k < B, ∃ δ > 0, ∀ (N : ℕ) (h : ℝ) (x0 : Fin n → ℝ) (κ : ℕ → Matrix (Fin m) (Fin n) ℝ × (Fin m → ℝ)), 0 < h → h < δ →
      k * c + N * h = (k + 1) * c → (∀ i, |x0 i - x (k * c) i| ≤ δ) →
      (∀ j < N, (∀ i i', |(κ j).1 i i' - G (k * c + j * h) i i'| ≤ δ) ∧ ∀ i, |(κ j).2 i - d (k * c + j * h) i| ≤ δ) →
      ∃ ξ : ℕ → Fin n → ℝ, ξ 0 = x0 ∧ P.FwSeq z N h (k * c) κ ξ ∧ (∀ j ≤ N, ∀ i, |ξ j i - x (k * c + j * h) i| ≤ ε) ∧
        ∀ j < N, ∀ i, |(-(κ j).1 *ᵥ ξ j + (κ j).2) i - (-G (k * c + j * h) *ᵥ x (k * c + j * h) + d (k * c + j * h)) i| ≤ ε := by
    intro k hk
    have hs := Icc_subset_Icc (hle k hk).1 (hle k hk).2
    exact CLQT.fw_converges (hP.mono (hle k hk).1 (hle k hk).2) (by nlinarith) (fun i j => (hG i j).mono hs) (fun i => (hdc i).mono hs)
      (fun i => (hxc i).mono hs) (fun t ht => hxd t (Ioo_subset_Ioo (hle k hk).1 (hle k hk).2 ht)) z ε hε
  choose! δ hδ hblk using hfwb
  obtain ⟨δ1, hδ1, hmin⟩ := exists_min_pos hδ
  obtain ⟨δ2, hδ2, hfw⟩ := CLQT.fw_converges hP h0 hG hdc hxc hxd false (min ε δ1) (lt_min hε hδ1)
  obtain ⟨N0, hN0, hsteps⟩ := exists_steps h0 (lt_min hδ1 hδ2)
  refine ⟨min δ1 δ2, lt_min hδ1 hδ2, N0, hN0, fun steps hst Ks ds hK hD forward => ?_⟩
  have hge : steps ≤ B * steps := Nat.le_mul_of_pos_left _ hB
  obtain ⟨hh, hhδ, hT⟩ := hsteps (B * steps) (by omega)
  set h := P.T / (B * steps : ℕ) with hhd
  have hs0 : 0 < steps := by omega
  have hsR : (0 : ℝ) < steps := by exact_mod_cast hs0
  have hsh : steps * h = c := by
    rw [hhd, hc]
    push_cast
    field_simp
  obtain ⟨κ, rfl, rfl⟩ := exists_gains hK.1 hD.1
  have hκ : ∀ k < B * steps, (∀ i j, |(κ k).1 i j - G (k * h) i j| ≤ min δ1 δ2) ∧ ∀ i, |(κ k).2 i - d (k * h) i| ≤ min δ1 δ2 := fun k hk =>
    ⟨hK.2 k _ (by simp [gainLists, hk]), hD.2 k _ (by simp [gainLists, hk])⟩
  obtain ⟨ξ, hξ0, hξ, hnx, -⟩ := hfw (B * steps) h (x 0) κ hh (hhδ.trans_le (min_le_right _ _)) hT (fun i => by simpa using hδ2.le)
    (fun k hk => ⟨fun i j => by rw [zero_add]; exact ((hκ k hk).1 i j).trans (min_le_right _ _), fun i => by
      rw [zero_add]; exact ((hκ k hk).2 i).trans (min_le_right _ _)⟩)
  simp only [zero_add] at hnx
  have htime : ∀ k i : ℕ, (k : ℝ) * c + i * h = ((k * steps + i : ℕ) : ℝ) * h := fun k i => by
    rw [← hsh]; push_cast; ring
  have hex : ∀ k < B, ∃ η : ℕ → Fin n → ℝ, η 0 = ξ (k * steps) ∧ P.FwSeq z steps h (k * c) (fun i => κ (k * steps + i)) η ∧
      (∀ j ≤ steps, ∀ i, |η j i - x (((k * steps + j : ℕ) : ℝ) * h) i| ≤ ε) ∧
      ∀ j < steps, ∀ i, |(-(κ (k * steps + j)).1 *ᵥ η j + (κ (k * steps + j)).2) i -
        (-G (((k * steps + j : ℕ) : ℝ) * h) *ᵥ x (((k * steps + j : ℕ) : ℝ) * h) + d (((k * steps + j : ℕ) : ℝ) * h)) i| ≤ ε := by
    intro k hk
    have hlt : k * steps + steps ≤ B * steps := by
      calc k * steps + steps = (k + 1) * steps := by ring
        _ ≤ B * steps := Nat.mul_le_mul_right _ hk
    obtain ⟨η, e0, e1, e2, e3⟩ := hblk k hk steps h (ξ (k * steps)) (fun i => κ (k * steps + i)) hh
      (hhδ.trans_le ((min_le_left _ _).trans (hmin k hk))) (by rw [hsh]; ring)
      (fun i => by
        have := (hnx (k * steps) (by omega) i).trans ((min_le_right _ _).trans (hmin k hk))
        have e : (k : ℝ) * c = ((k * steps : ℕ) : ℝ) * h := by rw [← hsh]; push_cast; ring
        rw [e]
        exact this)
      (fun j hj => by
        rw [htime]
        exact ⟨fun i i' => ((hκ _ (by omega)).1 i i').trans ((min_le_left _ _).trans (hmin k hk)),
          fun i => ((hκ _ (by omega)).2 i).trans ((min_le_left _ _).trans (hmin k hk))⟩)
    simp only [htime] at e2 e3
    exact ⟨η, e0, e1, e2, e3⟩
  choose! η hη0 hη1 hη2 hη3 using hex
  refine ⟨_, _, P.parForward_seq (x 0) κ B hs0 none none forward z (P.dtSeq_none (by omega)) hξ0 hξ hη0 (fun k hk => ?_),
    vecsNear_map fun j hj => ?_, vecsNear_map fun j hj => ?_⟩
  · have e : (0 : ℝ) + k * steps * h = k * c := by rw [← hsh]; ring
    have := hη1 k hk
    rw [← e] at this
    exact this
  · obtain ⟨h1, h2, h3⟩ := list_near hs0 j B hj
    have := hη3 _ h1 _ h2
    rwa [h3] at this
  · by_cases hj' : j < B * steps
    · obtain ⟨h1, h2, h3⟩ := list_near hs0 j B hj'
      have := hη2 _ h1 _ h2.le
      rw [h3] at this
      rw [if_pos hj']
      exact this
    · rw [if_neg hj']
      exact fun i => (hnx j (by omega) i).trans (min_le_left _ _)

end Verif
