import Verif.Proof.PararealBw
import Verif.Proof.LQTElem
import Verif.Proof.CLQTFwd

/-! The parallel backward pass of the continuous-time tracker. -/

namespace Verif

open Matrix

variable {n m : ℕ} {K : Type} [Field K] [LinearOrder K]

theorem symPart_symm (S : Matrix (Fin n) (Fin n) K) : (symPart S)ᵀ = symPart S := by
  unfold symPart
  rw [transpose_smul, transpose_add, transpose_transpose, add_comm]

theorem elemStep_sym {f : Matrix (Fin n) (Fin (3 * n + 2)) K → K → Py (Matrix (Fin n) (Fin (3 * n + 2)) K)} {dt t : K}
    {e e' : Elem n K} (h : CLQT.elemStep f dt t e = .ok e') : e'.Sym := by
  unfold CLQT.elemStep at h
  simp only [bind_ok, pure, Except.pure, Except.ok.injEq] at h
  obtain ⟨x, -, rfl⟩ := h
  exact ⟨symPart_symm _, symPart_symm _⟩

theorem foldlM_inv {α ι : Type} {I : α → Prop} {f : α → ι → Py α} (hf : ∀ a i b, f a i = .ok b → I b) : ∀ {l : List ι} {a b : α}, I a →
    l.foldlM f a = .ok b → I b
  | [], a, b, ha, h => by
    simp only [List.foldlM_nil, pure, Except.pure, Except.ok.injEq] at h
    exact h ▸ ha
  | i :: l, a, b, _, h => by
    rw [List.foldlM_cons, bind_ok] at h
    obtain ⟨c, h1, h2⟩ := h
    exact foldlM_inv hf (hf _ _ _ h1) h2

theorem CLQT.blockElem_sym {P : CLQT n m K} {forward : Bool} {steps : ℕ} {dt t0 : K} {k : ℕ} {e : Elem n K}
    (h : P.blockElem forward steps dt t0 k = .ok e) : e.Sym := by
  have h0 : (⟨1, 0, 0, 0, 0⟩ : Elem n K).Sym := ⟨transpose_zero, transpose_zero⟩
  unfold CLQT.blockElem at h
  cases forward with
  | true => exact foldlM_inv (fun _ _ _ h => elemStep_sym h) h0 h
  | false => exact foldlM_inv (fun _ _ _ h => elemStep_sym h) h0 h

theorem CLQT.bwF_sym {P : CLQT n m K} {dt t : K} {s s' : CVal n K} (h : P.bwF dt t s = .ok s') : s'.1ᵀ = s'.1 := by
  unfold CLQT.bwF at h
  simp only [bind_ok, pure, Except.pure, Except.ok.injEq] at h
  obtain ⟨x, -, rfl⟩ := h
  exact symPart_symm _

/-- The result of the extraction from scanned elements `w`. -/
theorem CLQT.parBackwardExtract_ok {P : CLQT n m K} {B steps : ℕ} {w : ℕ → Elem n K} {odt t0 : Option K} {r : BwResult n m K}
    (h : P.parBackwardExtract ((List.range (B + 1)).map w) steps odt t0 = .ok r) :
    ∃ dt, P.dtPar B steps odt = .ok dt ∧ ∃ σ : ℕ → ℕ → CVal n K, ∃ κ : ℕ → ℕ → Matrix (Fin m) (Fin n) K × (Fin m → K),
      (∀ q < B, σ q steps = ((w (q + 1)).J, (w (q + 1)).eta) ∧
        P.BwSeq steps dt (t0.getD 0 + q * dt * steps) (σ q) (κ q)) ∧
      r = ⟨((List.range B).map fun q => (List.range steps).map fun i => (κ q i).1).flatten,
        ((List.range B).map fun q => (List.range steps).map fun i => (κ q i).2).flatten,
        (w 0).J :: ((List.range B).map fun q => (List.range steps).map fun i => (σ q (i + 1)).1).flatten,
        (w 0).eta :: ((List.range B).map fun q => (List.range steps).map fun i => (σ q (i + 1)).2).flatten⟩ := by
  unfold CLQT.parBackwardExtract at h
  haveI : Inhabited (List (Matrix (Fin m) (Fin n) K × (Fin m → K) × Matrix (Fin n) (Fin n) K × (Fin n → K))) := ⟨[]⟩
  haveI : Inhabited (Matrix (Fin m) (Fin n) K × (Fin m → K) × Matrix (Fin n) (Fin n) K × (Fin n → K)) := ⟨0⟩
  simp only [List.length_map, List.length_range, Nat.add_sub_cancel, bind_ok, pure, Except.pure, Except.ok.injEq] at h
  obtain ⟨dt, hdt, e0, h0, rs, hrs, rfl⟩ := h
  rw [pyGet_seq w (by omega), Except.ok.injEq] at h0
  subst h0
  obtain ⟨f, rfl, hf⟩ := mapM_seq.1 hrs
  have key : ∀ q, ∃ σ : ℕ → CVal n K, ∃ κ : ℕ → Matrix (Fin m) (Fin n) K × (Fin m → K), q < B →
      (σ steps = ((w (q + 1)).J, (w (q + 1)).eta) ∧ P.BwSeq steps dt (t0.getD 0 + q * dt * steps) σ κ) ∧
      f q = (List.range steps).map fun i => ((κ i).1, (κ i).2, (σ (i + 1)).1, (σ (i + 1)).2) := by
    intro q
    by_cases hq : q < B
    · have := hf q hq
      simp only [bind_ok] at this
      obtain ⟨e, he, b, hb, hl⟩ := this
      rw [pyGet_seq w (by omega), Except.ok.injEq] at he
      subst he
      obtain ⟨dt', hdt', σ, κ, hσ, hseq, rfl⟩ := CLQT.seqBackward_ok.1 hb
      rw [P.dtSeq_some, Except.ok.injEq] at hdt'
      subst hdt'
      refine ⟨σ, κ, fun _ => ⟨⟨hσ, hseq⟩, ?_⟩⟩
      simp only [bwLists, List.length_map, List.length_range] at hl
      obtain ⟨g, hg, hg'⟩ := mapM_seq.1 hl
      rw [hg]
      refine seq_congr fun i hi => ?_
      have := hg' i hi
      simp only [bind_ok, Except.ok.injEq] at this
      obtain ⟨a1, e1, a2, e2, a3, e3, a4, e4, h5⟩ := this
      rw [pyGet_seq _ (by omega), Except.ok.injEq] at e1 e2 e3 e4
      rw [← h5, ← e1, ← e2, ← e3, ← e4]
    · exact ⟨fun _ => 0, fun _ => 0, fun h => absurd h hq⟩
  choose σ κ hσκ using key
  refine ⟨dt, hdt, σ, κ, fun q hq => (hσκ q hq).1, ?_⟩
  have hfl : (List.range B).map f = (List.range B).map fun q => (List.range steps).map fun i =>
      ((κ q i).1, (κ q i).2, (σ q (i + 1)).1, (σ q (i + 1)).2) := seq_congr fun q hq => (hσκ q hq).2
  rw [hfl]
  simp only [List.map_flatten, List.map_map, Function.comp_def]

theorem flatten_get {β : Type} {B s : ℕ} (f : ℕ → ℕ → β) {q i : ℕ} (hq : q < B) (hi : i < s) :
    ((List.range B).map fun q => (List.range s).map fun i => f q i).flatten[q * s + i]? = some (f q i) := by
  have hs : 0 < s := by omega
  have : ((List.range B).map fun q => (List.range s).map fun i => f q i).flatten =
      (List.range (B * s)).map fun j => f (j / s) (j % s) := by
    rw [← seq_blocks (fun j => f (j / s) (j % s)) s B]
    congr 1
    refine seq_congr fun q _ => seq_congr fun i hi => ?_
    have e1 : (q * s + i) / s = q := by
      rw [mul_comm, Nat.mul_add_div hs, Nat.div_eq_of_lt hi, add_zero]
    have e2 : (q * s + i) % s = i := by
      rw [mul_comm, Nat.mul_add_mod, Nat.mod_eq_of_lt hi]
    rw [e1, e2]
  rw [this]
  have hlt : q * s + i < B * s := by
    calc q * s + i < q * s + s := by omega
      _ = (q + 1) * s := by ring
      _ ≤ B * s := Nat.mul_le_mul_right _ hq
  have e1 : (q * s + i) / s = q := by
    rw [mul_comm, Nat.mul_add_div hs, Nat.div_eq_of_lt hi, add_zero]
  have e2 : (q * s + i) % s = i := by
    rw [mul_comm, Nat.mul_add_mod, Nat.mod_eq_of_lt hi]
  simp [hlt, e1, e2]

theorem flatten_len {β : Type} (B s : ℕ) (f : ℕ → ℕ → β) :
    ((List.range B).map fun q => (List.range s).map fun i => f q i).flatten.length = B * s := by
  simp [List.length_flatten, Function.comp_def, List.sum_map_count_dedup_eq_length]

/-- A suffix that ends with a value function is a value function. -/
theorem paren_value {es : List (Elem n K)} {S : Matrix (Fin n) (Fin n) K} {v : Fin n → K} {w : Elem n K}
    (hw : Paren combineABCEJ (es ++ [⟨0, 0, 0, v, S⟩]) w) (hs : ∀ e ∈ es ++ [(⟨0, 0, 0, v, S⟩ : Elem n K)], e.Sym) :
    w = ⟨0, 0, 0, w.eta, w.J⟩ := by
  obtain ⟨-, hrel⟩ := paren_rel hw hs
  have h : ∀ x l', w.A *ᵥ x + w.b - w.C *ᵥ l' = 0 := by
    intro x l'
    have := (hrel x (w.J *ᵥ x - w.eta + w.Aᵀ *ᵥ l') (w.A *ᵥ x + w.b - w.C *ᵥ l') l').1 ⟨rfl, rfl⟩
    rw [listRel_append] at this
    obtain ⟨y, k, -, h2⟩ := this
    obtain ⟨y', k', ⟨h3, -⟩, h4, -⟩ := h2
    rw [← h4, h3]
    simp
  have hb : w.b = 0 := by simpa using h 0 0
  have hA : w.A = 0 := mat_ext_mulVec fun x => by simpa [hb] using h x 0
  have hC : w.C = 0 := mat_ext_mulVec fun x => by simpa [hb, hA] using h 0 x
  cases w
  simp only at hb hA hC
  subst hb hA hC
  rfl

/-- Decomposition of the parallel backward pass. -/
theorem CLQT.parBackward_ok {P : CLQT n m K} {B steps : ℕ} {odt t0 : Option K} {forward : Bool} {r : BwResult n m K}
    (h : P.parBackwardPass B steps odt t0 forward = .ok r) (hXT : P.XTᵀ = P.XT) :
    ∃ dt, P.dtPar B steps odt = .ok dt ∧ ∃ E w : ℕ → Elem n K, ∃ σ : ℕ → ℕ → CVal n K,
      ∃ κ : ℕ → ℕ → Matrix (Fin m) (Fin n) K × (Fin m → K),
      (∀ q < B, P.blockElem forward steps dt (t0.getD 0) q = .ok (E q)) ∧
      w B = ⟨0, 0, 0, (P.HTᵀ * P.XT) *ᵥ P.rT, P.HTᵀ * P.XT * P.HT⟩ ∧
      (∀ q ≤ B, w q = ⟨0, 0, 0, (w q).eta, (w q).J⟩ ∧ (w q).Sym) ∧
      (∀ q < B, ∀ e, combineABCEJ (E q) (w (q + 1)) = .ok e → w q = e) ∧
      (∀ q < B, σ q steps = ((w (q + 1)).J, (w (q + 1)).eta) ∧
        P.BwSeq steps dt (t0.getD 0 + q * dt * steps) (σ q) (κ q)) ∧
      r = ⟨((List.range B).map fun q => (List.range steps).map fun i => (κ q i).1).flatten,
        ((List.range B).map fun q => (List.range steps).map fun i => (κ q i).2).flatten,
        (w 0).J :: ((List.range B).map fun q => (List.range steps).map fun i => (σ q (i + 1)).1).flatten,
        (w 0).eta :: ((List.range B).map fun q => (List.range steps).map fun i => (σ q (i + 1)).2).flatten⟩ := by
  unfold CLQT.parBackwardPass at h
  simp only [bind_ok] at h
  obtain ⟨dt, hdt, es, hes, el, hel, hr⟩ := h
  unfold CLQT.parBackwardInit at hes
  simp only [bind_ok, pure, Except.pure, Except.ok.injEq, P.dtPar_some, Option.getD_some] at hes
  obtain ⟨dt', hdt', l, hl, rfl⟩ := hes
  obtain rfl := hdt'
  haveI : Inhabited (Elem n K) := ⟨⟨0, 0, 0, 0, 0⟩⟩
  obtain ⟨E, rfl, hE⟩ := mapM_seq.1 hl
  set term : Elem n K := ⟨0, 0, 0, (P.HTᵀ * P.XT) *ᵥ P.rT, P.HTᵀ * P.XT * P.HT⟩ with hterm
  have htsym : term.Sym := ⟨transpose_zero, by
    simp only [hterm, transpose_mul, transpose_transpose, hXT, Matrix.mul_assoc]⟩
  have hsym : ∀ e ∈ (List.range B).map E ++ [term], e.Sym := by
    intro e he
    rcases List.mem_append.1 he with he | he
    · obtain ⟨q, hq, rfl⟩ := List.mem_map.1 he
      exact CLQT.blockElem_sym (hE q (List.mem_range.1 hq))
    · rw [List.mem_singleton.1 he]
      exact htsym
  obtain ⟨hlen, hsuf⟩ := scanVals_suffix hel
  have hlen' : el.length = B + 1 := by simpa using hlen
  obtain ⟨w, hw⟩ := exists_seq el
  rw [hlen'] at hw
  have hwp : ∀ q ≤ B, Paren combineABCEJ (((List.range B).map E).drop q ++ [term]) (w q) := by
    intro q hq
    obtain ⟨v, hv, hp⟩ := hsuf q (by simp; omega)
    rw [List.drop_append_of_le_length (by simpa using hq)] at hp
    rw [hw] at hv
    have hq' : q < B + 1 := by omega
    simp [hq'] at hv
    rw [hv]
    exact hp
  have hsymd : ∀ q, ∀ e ∈ ((List.range B).map E).drop q ++ [term], e.Sym := by
    intro q e he
    apply hsym
    rcases List.mem_append.1 he with he | he
    · exact List.mem_append.2 (.inl (List.mem_of_mem_drop he))
    · exact List.mem_append.2 (.inr he)
  rw [hw] at hr
  obtain ⟨dt', hdt', σ, κ, hσ, hr⟩ := CLQT.parBackwardExtract_ok hr
  rw [P.dtPar_some, Except.ok.injEq] at hdt'
  subst hdt'
  refine ⟨dt, hdt, E, w, σ, κ, hE, ?_, fun q hq => ⟨paren_value (hwp q hq) (hsymd q), (paren_rel (hwp q hq) (hsymd q)).1⟩,
    ?_, hσ, hr⟩
  · have := hwp B le_rfl
    rw [List.drop_eq_nil_of_le (by simp), List.nil_append] at this
    exact paren_unique this (.single _) (by intro e he; rw [List.mem_singleton.1 he]; exact htsym)
  · intro q hq e he
    refine paren_unique (hwp q hq.le) ?_ (hsymd q)
    have hd : ((List.range B).map E).drop q = E q :: ((List.range B).map E).drop (q + 1) := by
      rw [List.drop_eq_getElem_cons (by simpa using hq)]
      simp
    rw [hd]
    have := Paren.node (.single (E q)) (hwp (q + 1) hq) he
    simpa using this

end Verif
