import Verif.Model.ViterbiTFTests
import Verif.Props.ViterbiTests
import Verif.Proof.FSCTF
import Verif.Proof.FSCTestsSound

/-! Lemmas for `Props/ViterbiTFTests.lean`. -/

namespace Verif

variable {n q : ℕ} [NeZero n]

theorem arrMax_self {a : List (Fin n → ℝ)} (h : a ≠ []) : arrMax a a = .ok 0 := by
  unfold arrMax
  rw [if_pos rfl]
  apply listMax_zero
  · cases a with
    | nil => exact absurd rfl h
    | cons v a =>
      intro h0
      have h1 := congrArg List.length h0
      have hn := NeZero.pos n
      simp at h1
      omega
  · intro e he
    clear h
    obtain ⟨l, hl, he'⟩ := List.mem_flatten.1 he
    clear he
    induction a with
    | nil => cases hl
    | cons v a ih =>
      rcases List.mem_cons.1 hl with rfl | hl
      · obtain ⟨i, rfl⟩ := (List.mem_ofFn' _ _).1 he'
        simp
      · exact ih hl

theorem vtfCmp_pass {c : ℝ → Prop} (hc : c 0) {d1 d2 : Py (List (Fin n) × List (Fin n → ℝ))} {p : List (Fin n)}
    {V : List (Fin n → ℝ)} (h1 : d1 = .ok (p, V)) (h2 : d2 = .ok (p, V)) (hp : p ≠ []) (hV : V ≠ []) :
    Passes (vtfCmp c d1 d2) :=
  ⟨_, bind_ok.2 ⟨_, h1, bind_ok.2 ⟨_, h2, bind_ok.2 ⟨_, arrMax_self hV, bind_ok.2 ⟨_, pathErr_self hp, rfl⟩⟩⟩⟩,
    testTol_pos, hc⟩

/-- The reference decoder completes with a most probable path. -/
theorem log2_ok (H : HMM n q ℝ) (hH : H.All (fun p => 0 < p)) (ys : List (Fin q)) :
    ∃ p V, H.refViterbiLog2 negLog ys = .ok (p, V) ∧ H.IsMAP ys p ∧ p ≠ [] ∧ V ≠ [] := by
  obtain ⟨p, V, hlog, hmap⟩ := C14_log_isMAP negLog_spec H hH ys
  rw [(C14_log_eq_log2 (nl := negLog) H ys).1] at hlog
  refine ⟨p, V, hlog, hmap, ?_, ?_⟩
  · intro h; have := hmap.1; rw [h] at this; simp at this
  · have h1 := C14_log_values negLog_spec H hH ys
    rw [(C14_log_eq_log2 (nl := negLog) H ys).1, hlog] at h1
    obtain ⟨p', h1⟩ := h1
    have h2 := congrArg (fun r => r.2.length) (Except.ok.inj h1)
    have h3 := (C13_ref_values H (fun i j => (hH.Pi i j).le) (fun i y => (hH.Po i y).le) ys).1
    intro h
    simp [h, h3] at h2

theorem tfSeqForward_us_ne (am : (Fin n → ℝ) → Fin n) (H : HMM n q ℝ) {ys : List (Fin q)} (h : ys ≠ []) :
    (H.tfSeqForward am negLog ys).1 ≠ [] := by
  obtain ⟨l, y, rfl⟩ := (List.eq_nil_or_concat' ys).resolve_left h
  simp [HMM.tfSeqForward, List.foldl_append]

omit [NeZero n] in
theorem pathErr_le {a b : List (Fin n)} {e : ℝ} (h : pathErr a b = .ok e) : a.length = b.length ∧
    ∀ (k : ℕ) i j, a[k]? = some i → b[k]? = some j → |((i : ℕ) : ℝ) - ((j : ℕ) : ℝ)| ≤ e := by
  unfold pathErr at h
  split at h
  · rename_i hl
    refine ⟨hl, fun k i j hi hj => listMax_ge h _ (List.mem_of_getElem? (i := k) ?_)⟩
    rw [List.getElem?_zipWith, hi, hj]
  · cases h

omit [NeZero n] in
theorem arrMax_le {a b : List (Fin n → ℝ)} {e : ℝ} (h : arrMax a b = .ok e) : a.length = b.length ∧
    ∀ (k : ℕ) v w, a[k]? = some v → b[k]? = some w → ∀ i, |v i - w i| ≤ e := by
  unfold arrMax at h
  split at h
  · rename_i hl
    refine ⟨hl, fun k v w hi hj i => listMax_ge h _ (List.mem_flatten.2
      ⟨List.ofFn fun i => |v i - w i|, List.mem_of_getElem? (i := k) ?_, ?_⟩)⟩
    · rw [List.getElem?_zipWith, hi, hj]
    · exact (List.mem_ofFn' _ _).2 ⟨i, rfl⟩
  · cases h

theorem matMax_self {a : List (Fin n → Fin n → ℝ)} (h : a ≠ []) : matMax a a = .ok 0 := by
  unfold matMax
  rw [if_pos rfl]
  apply listMax_zero
  · cases a with
    | nil => exact absurd rfl h
    | cons v a =>
      intro h0
      have hm : |v 0 0 - v 0 0| ∈ (List.zipWith (fun v w : Fin n → Fin n → ℝ =>
          (List.ofFn fun i => List.ofFn fun j => |v i j - w i j|).flatten) (v :: a) (v :: a)).flatten :=
        List.mem_flatten.2 ⟨_, List.mem_cons_self, List.mem_flatten.2 ⟨List.ofFn fun j => |v 0 j - v 0 j|,
          (List.mem_ofFn' _ _).2 ⟨0, rfl⟩, (List.mem_ofFn' _ _).2 ⟨0, rfl⟩⟩⟩
      rw [h0] at hm
      cases hm
  · intro e he
    clear h
    obtain ⟨l, hl, he'⟩ := List.mem_flatten.1 he
    clear he
    induction a with
    | nil => cases hl
    | cons v a ih =>
      rcases List.mem_cons.1 hl with rfl | hl
      · obtain ⟨l, hl, he⟩ := List.mem_flatten.1 he'
        obtain ⟨i, rfl⟩ := (List.mem_ofFn' _ _).1 hl
        obtain ⟨j, rfl⟩ := (List.mem_ofFn' _ _).1 he
        simp
      · exact ih hl

omit [NeZero n] in
theorem matMax_le {a b : List (Fin n → Fin n → ℝ)} {e : ℝ} (h : matMax a b = .ok e) : a.length = b.length ∧
    ∀ (k : ℕ) v w, a[k]? = some v → b[k]? = some w → ∀ i j, |v i j - w i j| ≤ e := by
  unfold matMax at h
  split at h
  · rename_i hl
    refine ⟨hl, fun k v w hi hj i j => listMax_ge h _ (List.mem_flatten.2
      ⟨(List.ofFn fun i => List.ofFn fun j => |v i j - w i j|).flatten, List.mem_of_getElem? (i := k) ?_, ?_⟩)⟩
    · rw [List.getElem?_zipWith, hi, hj]
    · exact List.mem_flatten.2 ⟨List.ofFn fun j => |v i j - w i j|, (List.mem_ofFn' _ _).2 ⟨i, rfl⟩,
        (List.mem_ofFn' _ _).2 ⟨j, rfl⟩⟩
  · cases h

/-- An element of the control problem of the decoder, if its costs are at most the sentinel. -/
theorem tfStageElem_vit {inf : ℝ} {L : Fin n → Fin n → ℝ} {x y : Fin n} (h : L x y ≤ inf) :
    tfStageElem inf (⟨fun _ u => u, L⟩ : FStage n n ℝ) x y = L x y := by
  rcases tfStageElem_cases inf (⟨fun _ u => u, L⟩ : FStage n n ℝ) x y with ⟨he, -⟩ | ⟨u, hu, he⟩
  · exact le_antisymm (tfStageElem_le inf (⟨fun _ u => u, L⟩ : FStage n n ℝ) x y) (h.trans he.ge)
  · rw [he]
    exact congrArg (L x) hu

theorem negLog_mul {a b : ℝ} (ha : 0 < a) (hb : 0 < b) : negLog (a * b) = negLog a + negLog b := by
  unfold negLog
  rw [Real.log_mul ha.ne' hb.ne']
  ring

theorem vit_elems (H : HMM n q ℝ) (hH : H.All (fun p => 0 < p)) (B : ℝ) (hB : H.All (fun p => |negLog p| ≤ B))
    (hT : B + B ≤ 10 ^ 20) (ys : List (Fin q)) {M : FSC n n ℝ} (h : H.getFSC negLog ys = .ok M) :
    (M.stages.map (tfStageElem (10 ^ 20))).reverse.map (fun v j x => v x j) = ys.map (H.tfElem negLog) ∧
    M.LT = fun x => negLog (H.prior x) := by
  unfold HMM.getFSC at h
  split at h
  · cases h
  · obtain rfl := Except.ok.inj h
    refine ⟨?_, rfl⟩
    dsimp only
    rw [← List.map_reverse, ← List.map_reverse, List.reverse_reverse, List.map_map, List.map_map]
    refine List.map_congr_left fun y _ => funext fun j => funext fun x => ?_
    have e1 : negLog (H.Pi j x * H.Po x y) = negLog (H.Pi j x) + negLog (H.Po x y) :=
      negLog_mul (hH.Pi j x) (hH.Po x y)
    refine (tfStageElem_vit (L := fun x u => negLog (H.Pi u x * H.Po x y)) ?_).trans e1
    rw [e1]
    exact (add_le_add ((le_abs_self _).trans (hB.Pi j x)) ((le_abs_self _).trans (hB.Po x y))).trans hT

end Verif
