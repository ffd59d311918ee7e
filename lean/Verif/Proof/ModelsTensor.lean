import Verif.Props.TensorModels
import Verif.Props.TensorCLQT
import Verif.Props.CNonlin
import Verif.Props.LinearModel
import Verif.Proof.HJBTensorPass
import Verif.Proof.CLQTTensor

/-! Proofs about the tensors of the models. -/

namespace Verif

open Matrix

variable {K L : Type} {n m : ℕ}

theorem meshCost_scalar [Field K] {t : Tens K} {A : Fin m → Fin n → K} (h : t.shape = []) (hA : ∀ u i, t.val [] = A u i) : MeshCost t A := by
  intro tq q hq
  obtain ⟨st, vt⟩ := t
  dsimp only at h hA
  subst h
  have e : (⟨[], vt⟩ : Tens K).bin (· + ·) tq = (Tens.const [] (vt [])).bin (· + ·) tq := by
    unfold Tens.bin
    have hb : ∀ i : List ℕ, bcastIdx [] i = [] := fun i => by
      unfold bcastIdx
      simp
    simp only [Tens.const, hb]
  obtain ⟨r, h1, h2⟩ := meshCost_const (vt []) hq
  exact ⟨r, e.trans h1, h2.1, fun u i => (h2.2 u i).trans (by rw [hA u i])⟩

theorem costOn_broadcast [Field K] {F : TensFun K} {l : K → K → K} {tx tu : Tens K} {g : Fin n → K} {ug : Fin m → K} (hx : tx.IsV g)
    (hu : tu.IsV ug) (hL : Broadcast2 F l) : CostOn F tx tu fun u i => l (g i) (ug u) := by
  intro X U e
  obtain ⟨sx, vx⟩ := tx
  obtain ⟨su, vu⟩ := tu
  obtain ⟨h1, h2⟩ := hx
  obtain ⟨h3, h4⟩ := hu
  dsimp only at h1 h2 h3 h4
  subst h1 h3
  unfold Tens.meshgrid at e
  dsimp only at e
  cases e
  obtain ⟨r, e1, h | h⟩ := hL ⟨[m, n], fun i => vx [i.getD 1 0]⟩ ⟨[m, n], fun i => vu [i.getD 0 0]⟩ rfl
  · refine ⟨r, e1, fun hq => mesh_bin ⟨h.1, fun u i => ?_⟩ hq⟩
    rw [h.2 _ (mem_allIdx2.2 ⟨_, _, rfl, u.2, i.2⟩)]
    exact congrArg₂ l (h2 i) (h4 u)
  · refine ⟨r, e1, meshCost_scalar h.1 fun u i => ?_⟩
    rw [h.2 _ (mem_allIdx2.2 ⟨_, _, rfl, u.2, i.2⟩)]
    exact congrArg₂ l (h2 i) (h4 u)

theorem linspace_rep [Field K] (a b : K) (k : ℕ) :
    (k = 0 → Tens.linspace a b k = .error .valueError ∧ tfLinspace a b k = .error .valueError) ∧
    (k ≠ 0 → ∃ t v, Tens.linspace a b k = .ok t ∧ tfLinspace a b k = .ok v ∧ t.IsV v) := by
  unfold Tens.linspace tfLinspace
  refine ⟨fun h => by rw [if_pos h, if_pos h]; exact ⟨rfl, rfl⟩, fun h => ?_⟩
  rw [if_neg h, if_neg h]
  exact ⟨_, _, rfl, rfl, rfl, fun x => rfl⟩

theorem quad_pointwise [Field K] (p q : K → K) : Pointwise2 (fun x u : Tens K => (x.map p).bin (· + ·) (u.map q)) fun x u => p x + q u := by
  intro a b h
  obtain ⟨r, h1, h2, h3⟩ := bin_pointwise (f := (· + ·)) (a.map p) (b.map q) h
  exact ⟨r, h1, h2, h3⟩

theorem Pointwise2.broadcast {F : TensFun K} {f : K → K → K} (h : Pointwise2 F f) : Broadcast2 F f := fun a b e =>
  let ⟨r, h1, h2⟩ := h a b e
  ⟨r, h1, .inl h2⟩

theorem mul_pointwise [Field K] : Pointwise2 (fun x u : Tens K => u.bin (· * ·) x) fun x u => u * x := by
  intro a b h
  obtain ⟨r, h1, h2, h3⟩ := bin_pointwise (f := (· * ·)) b a h.symm
  exact ⟨r, h1, h2.trans h.symm, fun i hi => h3 i (h ▸ hi)⟩

/-- Both models raise without points and otherwise agree. -/
theorem model_rep [Field K] {f L : TensFun K} {LT : Tens K → Py (Tens K)} {f' L' : K → K → K} {LT' : K → K} (T a b c d : K) (hf : Pointwise2 f f')
    (hL : Broadcast2 L L') (hLT : Pointwise1 LT LT') :
    PyRep (fun (t : TensModel K) (M : CModel n m K) => t.Holds M)
      (do
        let x ← Tens.linspace a b n
        let u ← Tens.linspace c d m
        return ⟨f, L, LT, T, x, u⟩)
      (do
        let x ← tfLinspace a b n
        let u ← tfLinspace c d m
        return ⟨f', L', LT', T, x, u⟩) := by
  by_cases hn : n = 0
  · obtain ⟨e1, e2⟩ := (linspace_rep a b n).1 hn
    rw [e1, e2]
    exact ⟨_, rfl⟩
  obtain ⟨t, v, e1, e2, hv⟩ := (linspace_rep a b n).2 hn
  rw [e1, e2]
  by_cases hm : m = 0
  · obtain ⟨e3, e4⟩ := (linspace_rep c d m).1 hm
    dsimp only [bind, Except.bind]
    rw [e3, e4]
    exact ⟨_, rfl⟩
  obtain ⟨s, w, e3, e4, hw⟩ := (linspace_rep c d m).2 hm
  dsimp only [bind, Except.bind]
  rw [e3, e4]
  exact ⟨_, rfl, hf, hL, hLT, rfl, hv, hw⟩

theorem mesh_bin' {K L : Type} {f : K → K → L} {a b : Tens K} {A B : Fin m → Fin n → K} (ha : a.IsM A) (hb : b.IsM B) :
    ∃ r, a.bin f b = .ok r ∧ r.IsM fun u i => f (A u i) (B u i) := by
  obtain ⟨sa, va⟩ := a
  obtain ⟨sb, vb⟩ := b
  obtain ⟨h1, h2⟩ := ha
  obtain ⟨h3, h4⟩ := hb
  dsimp only at h1 h2 h3 h4
  subst h1 h3
  refine ⟨_, Tens.bin_eq (s := [m, n]) (by simp [padShape]) (by simp [padShape]), rfl, fun u i => ?_⟩
  have e1 : bcastIdx [m, n] [u.val, i.val] = [u.val, i.val] := by simp [bcastIdx, padShape, bc_lt]
  show f (va (bcastIdx [m, n] [u.val, i.val])) (vb (bcastIdx [m, n] [u.val, i.val])) = _
  rw [e1, h2, h4]

theorem mesh_map' {K L : Type} (f : K → L) {a : Tens K} {A : Fin m → Fin n → K} (ha : a.IsM A) : (a.map f).IsM fun u i => f (A u i) :=
  ⟨ha.1, fun u i => congrArg f (ha.2 u i)⟩

theorem const_isM {K : Type} (c : K) : (Tens.const [m, n] c).IsM fun (_ : Fin m) (_ : Fin n) => c := ⟨rfl, fun _ _ => rfl⟩

theorem whereT_rep {K : Type} {c : Tens Bool} {a b : Tens K} {C : Fin m → Fin n → Bool} {A B : Fin m → Fin n → K} (hc : c.IsM C) (ha : a.IsM A)
    (hb : b.IsM B) : ∃ r, c.whereT a b = .ok r ∧ r.IsM fun u i => if C u i = true then A u i else B u i := by
  unfold Tens.whereT
  rw [if_pos ⟨hc.1.trans ha.1.symm, hc.1.trans hb.1.symm⟩]
  refine ⟨_, rfl, hc.1, fun u i => ?_⟩
  show (if c.val [u.val, i.val] = true then a.val [u.val, i.val] else b.val [u.val, i.val]) = _
  rw [hc.2, ha.2, hb.2]

theorem blockV_rep (inf dt : ℝ) {tg : Tens ℝ} {g : Fin n → ℝ} (hg : tg.IsV g) :
    ∃ t, tensUpwindBlockV inf dt tg = .ok t ∧ t.IsM (upwindBlockVTF inf dt g) := by
  obtain ⟨sg, vg⟩ := tg
  obtain ⟨h1, h2⟩ := hg
  dsimp only at h1 h2
  subst h1
  have hX : (⟨[n, n], fun i => vg [i.getD 1 0]⟩ : Tens ℝ).IsM fun (_ : Fin n) (k : Fin n) => g k := ⟨rfl, fun u i => h2 i⟩
  have hY : (⟨[n, n], fun i => vg [i.getD 0 0]⟩ : Tens ℝ).IsM fun (i : Fin n) (_ : Fin n) => g i := ⟨rfl, fun u i => h2 u⟩
  have e0 : Tens.meshgrid (⟨[n], vg⟩ : Tens ℝ) ⟨[n], vg⟩ = .ok (⟨[n, n], fun i => vg [i.getD 1 0]⟩, ⟨[n, n], fun i => vg [i.getD 0 0]⟩) := rfl
  generalize (⟨[n, n], fun i => vg [i.getD 1 0]⟩ : Tens ℝ) = X at *
  generalize (⟨[n, n], fun i => vg [i.getD 0 0]⟩ : Tens ℝ) = Y at *
  classical
  unfold tensUpwindBlockV
  have hz := const_isM (m := n) (n := n) (0 : ℝ)
  have hi := mesh_map' (inf * ·) (const_isM (m := n) (n := n) (1 : ℝ))
  rw [← hY.1] at hz hi
  have hp := mesh_map' (fun x : ℝ => @decide (x ≥ 0) (Classical.propDecidable _)) hY
  have ha := mesh_map' (Real.exp dt * ·) hY
  obtain ⟨t1, a1, b1⟩ := mesh_bin' (f := fun x y : ℝ => @decide (x ≥ y) (Classical.propDecidable _)) hX hY
  obtain ⟨t2, a2, b2⟩ := mesh_bin' (f := and) hp b1
  obtain ⟨t3, a3, b3⟩ := mesh_bin' (f := fun x y : ℝ => @decide (x ≤ y) (Classical.propDecidable _)) hX ha
  obtain ⟨t4, a4, b4⟩ := mesh_bin' (f := and) b2 b3
  obtain ⟨t5, a5, b5⟩ := mesh_bin' (f := fun x y : ℝ => @decide (x ≥ y) (Classical.propDecidable _)) hX ha
  obtain ⟨t6, a6, b6⟩ := mesh_bin' (f := and) hp b5
  obtain ⟨t7, a7, b7⟩ := mesh_bin' (f := fun x y : ℝ => @decide (x ≤ y) (Classical.propDecidable _)) hX hY
  obtain ⟨t8, a8, b8⟩ := mesh_bin' (f := and) b6 b7
  obtain ⟨t9, a9, b9⟩ := mesh_bin' (f := or) b4 b8
  obtain ⟨t, a10, b10⟩ := whereT_rep b9 hz hi
  refine ⟨t, bstep e0 (bstep a1 (bstep a2 (bstep a3 (bstep a4 (bstep a5 (bstep a6 (bstep a7 (bstep a8 (bstep a9 a10))))))))), b10.1, fun i k => ?_⟩
  rw [b10.2]
  unfold upwindBlockVTF
  simp only [Bool.or_eq_true, Bool.and_eq_true, decide_eq_true_eq]

theorem tensRef_eq (C : Tens ℝ) (c : Fin 13 → ℝ) (h : ∀ i : Fin 13, C.val [i.val] = c i) (t : ℝ) :
    tensRef C (2 * Real.pi / 50) t = linRefCTF c t := by
  unfold tensRef linRefCTF
  rw [← h 0, ← h 1, ← h 2, ← h 3, ← h 4, ← h 5, ← h 6, ← h 7, ← h 8, ← h 9, ← h 10, ← h 11, ← h 12]
  rfl

theorem smul_one_isM {k : ℕ} (c : ℝ) : ((Tens.eye2 k : Tens ℝ).map (c * ·)).IsM (c • (1 : Matrix (Fin k) (Fin k) ℝ)) := by
  refine ⟨rfl, fun x y => ?_⟩
  show c * (if x.val = y.val then (1 : ℝ) else 0) = c • (1 : Matrix (Fin k) (Fin k) ℝ) x y
  rw [Matrix.one_apply, smul_eq_mul]
  congr 1
  simp [Fin.ext_iff]

theorem one_isM {k : ℕ} : (Tens.eye2 k : Tens ℝ).IsM (1 : Matrix (Fin k) (Fin k) ℝ) := by
  refine ⟨rfl, fun x y => ?_⟩
  show (if x.val = y.val then (1 : ℝ) else 0) = (1 : Matrix (Fin k) (Fin k) ℝ) x y
  rw [Matrix.one_apply]
  simp [Fin.ext_iff]

theorem getClqt_rep : tensGetClqt.1.IsV linGetCLQTTF.2 ∧ tensGetClqt.2.1.Holds linGetCLQTTF.1 ∧ tensGetClqt.2.2.Holds linGetCLQTTF.1 := by
  refine ⟨⟨rfl, fun x => ?_⟩, ⟨smul_one_isM 1, one_isM, ⟨rfl, fun x => ?_⟩, rfl⟩,
    ⟨fun t => ⟨rfl, fun x y => ?_⟩, fun t => ⟨rfl, fun x y => ?_⟩, fun t => smul_one_isM 1, fun t => smul_one_isM 0.1, fun t => ⟨rfl, fun x => rfl⟩,
      fun t => ⟨rfl, fun x y => ?_⟩, fun t => ⟨rfl, fun x => ?_⟩⟩⟩
  · fin_cases x <;> rfl
  · fin_cases x <;> rfl
  · fin_cases x <;> fin_cases y <;> rfl
  · fin_cases x <;> fin_cases y <;> rfl
  · fin_cases x <;> fin_cases y <;> rfl
  · have h1 := tensRef_eq tensCx linCxTF (fun i => by fin_cases i <;> rfl) t
    have h2 := tensRef_eq tensCy linCyTF (fun i => by fin_cases i <;> rfl) t
    fin_cases x
    · exact h1
    · exact h2

theorem HoldsV.near {t : Tens ℝ} {l : List (Fin n → ℝ)} (h : t.HoldsV l) {N : ℕ} {w : ℝ} {f : ℝ → Fin n → ℝ} {ε : ℝ} (hl : VecsNear l N w f ε) :
    t.Near N w f ε := by
  refine ⟨h.1.trans (by rw [hl.1]), fun k hk i => ?_⟩
  have hk' : k < l.length := by rw [hl.1]; exact hk
  have e := h.2 k hk' i
  rw [show t.val [k, i.val] = l[k] i from e]
  exact hl.2 k _ (List.getElem?_eq_getElem hk') i

theorem linRefC_cont (c : Fin 13 → ℝ) : Continuous (linRefC c) := by
  unfold linRefC
  fun_prop

theorem linGetCLQT_contData : linGetCLQT.1.ContData 0 linGetCLQT.1.T where
  F := fun _ _ => continuousOn_const
  L := fun _ _ => continuousOn_const
  X := fun _ _ => continuousOn_const
  U := fun _ _ => continuousOn_const
  c := fun _ => continuousOn_const
  H := fun _ _ => continuousOn_const
  r := by
    intro i
    refine Continuous.continuousOn ?_
    fin_cases i
    · exact linRefC_cont linCx
    · exact linRefC_cont linCy
  sym := fun t _ => (C74_continuous.2.2.2.2.2.1 t).2.2.2
  pos := fun t _ => (C74_continuous.2.2.2.2.2.1 t).2.2.1

end Verif
