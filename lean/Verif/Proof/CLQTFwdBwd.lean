import Verif.Proof.CLQTPar

/-! The forward-backward pass of the continuous-time tracker. -/

namespace Verif

open Matrix

variable {n m : ℕ} {K : Type} [Field K] [LinearOrder K]

theorem reduceOption_some {β : Type} (f : ℕ → β) (N : ℕ) :
    ((List.range N).map fun k => some (f k)).reduceOption = (List.range N).map f := by
  simp [List.reduceOption, List.filterMap_map]

theorem reduceOption_none {β : Type} (N : ℕ) : ((List.range N).map fun _ => (none : Option β)).reduceOption = [] := by
  simp [List.reduceOption, List.filterMap_map]

/-- Decomposition of `combineForwardBackward`. -/
theorem combineFB_ok {bw : BwResult n m K} {fw : AbcResult n K} {us : List (Fin m → K)} {xs : List (Fin n → K)}
    (h : CLQT.combineForwardBackward bw fw = .ok (us, xs)) (hl : bw.Kx_list.length ≤ bw.S_list.length) :
    ∃ ξ : ℕ → Fin n → K, ∃ υ : ℕ → Fin m → K, xs = (List.range bw.S_list.length).map ξ ∧
      us = (List.range bw.Kx_list.length).map υ ∧
      (∀ k < bw.S_list.length, ∃ S v b C, bw.S_list[k]? = some S ∧ bw.v_list[k]? = some v ∧ fw.b_list[k]? = some b ∧
        fw.C_list[k]? = some C ∧ (1 + C * S).det ≠ 0 ∧ (1 + C * S) *ᵥ ξ k = b + C *ᵥ v) ∧
      ∀ k < bw.Kx_list.length, ∃ Kx d, bw.Kx_list[k]? = some Kx ∧ bw.d_list[k]? = some d ∧ υ k = -Kx *ᵥ ξ k + d := by
  unfold CLQT.combineForwardBackward at h
  simp only [bind_ok, pure, Except.pure, Except.ok.injEq, Prod.mk.injEq] at h
  obtain ⟨rs, hrs, rfl, rfl⟩ := h
  have : Inhabited (Option (Fin m → K) × (Fin n → K)) := ⟨(none, 0)⟩
  obtain ⟨f, rfl, hf⟩ := mapM_seq.1 hrs
  have key : ∀ k < bw.S_list.length, (∃ S v b C, bw.S_list[k]? = some S ∧ bw.v_list[k]? = some v ∧ fw.b_list[k]? = some b ∧
      fw.C_list[k]? = some C ∧ (1 + C * S).det ≠ 0 ∧ (1 + C * S) *ᵥ (f k).2 = b + C *ᵥ v) ∧
      (k < bw.Kx_list.length → ∃ Kx d, bw.Kx_list[k]? = some Kx ∧ bw.d_list[k]? = some d ∧
        (f k).1 = some (-Kx *ᵥ (f k).2 + d)) ∧ (¬k < bw.Kx_list.length → (f k).1 = none) := by
    intro k hk
    obtain ⟨S, hS, v, hv, A, -, b, hb, C, hC, x, hx, u, hu, e⟩ := by
      have := hf k hk
      simp only [bind_ok] at this
      exact this
    obtain e := Except.ok.inj e
    rw [← e]
    refine ⟨⟨S, v, b, C, pyGet_ok.1 hS, pyGet_ok.1 hv, pyGet_ok.1 hb, pyGet_ok.1 hC, (solveV_ok.1 hx).1, (solveV_ok.1 hx).2⟩, ?_, ?_⟩
    · intro hk'
      rw [if_pos hk'] at hu
      simp only [bind_ok, Except.ok.injEq] at hu
      obtain ⟨Kx, hK, d, hd, rfl⟩ := hu
      exact ⟨Kx, d, pyGet_ok.1 hK, pyGet_ok.1 hd, rfl⟩
    · intro hk'
      rw [if_neg hk'] at hu
      exact (Except.ok.inj hu).symm
  refine ⟨fun k => (f k).2, fun k => ((f k).1).getD 0, ?_, ?_, fun k hk => (key k hk).1, ?_⟩
  · rw [List.map_map]; rfl
  · obtain ⟨r, hr⟩ := Nat.exists_eq_add_of_le hl
    rw [hr, List.map_map, seq_add, List.reduceOption_append]
    have e1 : (List.range bw.Kx_list.length).map (Prod.fst ∘ f) =
        (List.range bw.Kx_list.length).map fun k => some (((f k).1).getD 0) := by
      refine seq_congr fun k hk => ?_
      obtain ⟨Kx, d, -, -, e⟩ := (key k (by omega)).2.1 hk
      simp [e]
    have e2 : (List.range r).map (fun i => (Prod.fst ∘ f) (bw.Kx_list.length + i)) = (List.range r).map fun _ => none := by
      refine seq_congr fun k hk => ?_
      exact (key _ (by omega)).2.2 (by omega)
    rw [e1, e2, reduceOption_none, List.append_nil, reduceOption_some]
  · intro k hk
    obtain ⟨Kx, d, h1, h2, e⟩ := (key k (by omega)).2.1 hk
    exact ⟨Kx, d, h1, h2, by simp [e]⟩

/-- A prefix that starts at a fixed state. -/
theorem paren_start {es : List (Elem n K)} {b0 : Fin n → K} {C0 : Matrix (Fin n) (Fin n) K} {w : Elem n K}
    (hw : Paren combineABCEJ (⟨0, b0, C0, 0, 0⟩ :: es) w) (hs : ∀ e ∈ (⟨0, b0, C0, 0, 0⟩ : Elem n K) :: es, e.Sym) :
    w = ⟨0, w.b, w.C, 0, 0⟩ := by
  obtain ⟨-, hrel⟩ := paren_rel hw hs
  have h : ∀ x l', w.J *ᵥ x - w.eta + w.Aᵀ *ᵥ l' = 0 := by
    intro x l'
    have := (hrel x (w.J *ᵥ x - w.eta + w.Aᵀ *ᵥ l') (w.A *ᵥ x + w.b - w.C *ᵥ l') l').1 ⟨rfl, rfl⟩
    obtain ⟨y, k, ⟨-, h2⟩, -⟩ := this
    rw [h2]
    simp
  have hb : w.eta = 0 := by simpa using h 0 0
  have hJ : w.J = 0 := mat_ext_mulVec fun x => by simpa [hb] using h x 0
  have hA' : w.Aᵀ = 0 := mat_ext_mulVec fun x => by simpa [hb, hJ] using h 0 x
  have hA : w.A = 0 := by rw [← transpose_transpose w.A, hA', transpose_zero]
  clear hA'
  cases w
  simp only at hb hA hJ
  subst hb hA hJ
  rfl

/-- Decomposition of the parallel forward-backward pass. -/
theorem CLQT.parFwdBwd_ok {P : CLQT n m K} {x0 : Fin n → K} {bw : BwResult n m K} {B steps : ℕ} {odt t0 : Option K}
    {forward : Bool} {us : List (Fin m → K)} {xs : List (Fin n → K)}
    (h : P.parFwdBwdPass x0 bw B steps odt t0 forward = .ok (us, xs)) :
    B ≠ 0 ∧ bw.Kx_list.length = B * steps ∧ bw.S_list.length = B * steps + 1 ∧
    ∃ dt, P.dtPar B steps odt = .ok dt ∧ ∃ E w : ℕ → Elem n K,
      (∀ q < B, P.blockElem forward steps dt (t0.getD 0) q = .ok (E q)) ∧
      w 0 = ⟨0, x0, 0, 0, 0⟩ ∧ (∀ q ≤ B, w q = ⟨0, (w q).b, (w q).C, 0, 0⟩ ∧ (w q).Sym) ∧
      (∀ q < B, ∀ e, combineABCEJ (w q) (E q) = .ok e → w (q + 1) = e) ∧
      ∃ (fw : ℕ → AbcResult n K) (υ : ℕ → ℕ → Fin m → K) (ξ : ℕ → ℕ → Fin n → K),
      (∀ q < B, P.seqFwdBwdPass 0 steps (some dt) (some (t0.getD 0 + q * steps * dt)) (some (w q).A) (some (w q).b)
          (some (w q).C) = .ok (fw q) ∧
        CLQT.combineForwardBackward
          ⟨pySlice bw.Kx_list (q * steps) ((q + 1) * steps), pySlice bw.d_list (q * steps) ((q + 1) * steps),
            pySlice bw.S_list (q * steps) ((q + 1) * steps + 1), pySlice bw.v_list (q * steps) ((q + 1) * steps + 1)⟩ (fw q) =
          .ok ((List.range steps).map (υ q), (List.range (steps + 1)).map (ξ q))) ∧
      us = ((List.range B).map fun q => (List.range steps).map fun i => υ q i).flatten ∧
      xs = ((List.range B).map fun q => (List.range steps).map fun i => ξ q i).flatten ++ [ξ (B - 1) steps] := by
  unfold CLQT.parFwdBwdPass at h
  simp only [bind_ok] at h
  obtain ⟨dt, hdt, es, hes, el, hel, hr⟩ := h
  unfold CLQT.parFwdBwdInit at hes
  simp only [bind_ok, pure, Except.pure, Except.ok.injEq, P.dtPar_some, Option.getD_some] at hes
  obtain ⟨dt', hdt', l, hl, rfl⟩ := hes
  obtain rfl := hdt'
  have : Inhabited (Elem n K) := ⟨⟨0, 0, 0, 0, 0⟩⟩
  obtain ⟨E, rfl, hE⟩ := mapM_seq.1 hl
  have hsym : ∀ e ∈ (⟨0, x0, 0, 0, 0⟩ : Elem n K) :: (List.range B).map E, e.Sym := by
    intro e he
    rcases List.mem_cons.1 he with rfl | he
    · exact ⟨transpose_zero, transpose_zero⟩
    · obtain ⟨q, hq, rfl⟩ := List.mem_map.1 he
      exact CLQT.blockElem_sym (hE q (List.mem_range.1 hq))
  obtain ⟨hlen, hpre⟩ := scanVals_prefix hel
  have hlen' : el.length = B + 1 := by simpa using hlen
  obtain ⟨w, hw⟩ := exists_seq el
  rw [hlen'] at hw
  have hwp : ∀ q ≤ B, Paren combineABCEJ (⟨0, x0, 0, 0, 0⟩ :: ((List.range B).map E).take q) (w q) := by
    intro q hq
    obtain ⟨v, hv, hp⟩ := hpre q (by simp; omega)
    rw [List.take_succ_cons] at hp
    rw [hw] at hv
    have hq' : q < B + 1 := by omega
    simp [hq'] at hv
    rw [hv]
    exact hp
  have hsymd : ∀ q, ∀ e ∈ (⟨0, x0, 0, 0, 0⟩ : Elem n K) :: ((List.range B).map E).take q, e.Sym := by
    intro q e he
    apply hsym
    rcases List.mem_cons.1 he with rfl | he
    · simp
    · exact List.mem_cons.2 (.inr (List.mem_of_mem_take he))
  subst hw
  unfold CLQT.parFwdBwdExtract at hr
  simp only [List.length_map, List.length_range, Nat.add_sub_cancel] at hr
  by_cases hK : B * steps = bw.Kx_list.length
  swap
  · rw [if_pos hK] at hr
    cases hr
  rw [if_neg (by simpa using hK)] at hr
  by_cases hS : B * steps + 1 = bw.S_list.length
  swap
  · rw [if_pos hS] at hr
    cases hr
  rw [if_neg (by simpa using hS)] at hr
  simp only [P.dtPar_some, bind_ok, pure, Except.pure, Except.ok.injEq, Option.getD_some] at hr
  obtain ⟨dt', hdt', rs, hrs, hr⟩ := hr
  subst hdt'
  have : Inhabited (List ((Fin m → K) × (Fin n → K)) × List (Fin n → K)) := ⟨([], [])⟩
  have : Inhabited ((Fin m → K) × (Fin n → K)) := ⟨0⟩
  have : Inhabited (AbcResult n K) := ⟨⟨[], [], []⟩⟩
  obtain ⟨f, rfl, hf⟩ := mapM_seq.1 hrs
  have hB : B ≠ 0 := by
    rintro rfl
    cases hr
  have hle : ∀ q < B, (q + 1) * steps ≤ B * steps := fun q hq => Nat.mul_le_mul_right _ hq
  have key : ∀ q, ∃ (fw : AbcResult n K) (υ : ℕ → Fin m → K) (ξ : ℕ → Fin n → K), q < B →
      (P.seqFwdBwdPass 0 steps (some dt) (some (t0.getD 0 + q * steps * dt)) (some (w q).A) (some (w q).b)
          (some (w q).C) = .ok fw ∧
        CLQT.combineForwardBackward
          ⟨pySlice bw.Kx_list (q * steps) ((q + 1) * steps), pySlice bw.d_list (q * steps) ((q + 1) * steps),
            pySlice bw.S_list (q * steps) ((q + 1) * steps + 1), pySlice bw.v_list (q * steps) ((q + 1) * steps + 1)⟩ fw =
          .ok ((List.range steps).map υ, (List.range (steps + 1)).map ξ)) ∧
      f q = ((List.range steps).map fun i => (υ i, ξ i), (List.range (steps + 1)).map ξ) := by
    intro q
    by_cases hq : q < B
    swap
    · exact ⟨default, fun _ => 0, fun _ => 0, fun h => absurd h hq⟩
    have := hf q hq
    simp only [bind_ok, Except.ok.injEq] at this
    obtain ⟨e, he, fw, hfw, ⟨b1, b2⟩, hb, l, hl, e2⟩ := this
    rw [pyGet_seq w (by omega), Except.ok.injEq] at he
    subst he
    have l1 : (pySlice bw.Kx_list (q * steps) ((q + 1) * steps)).length = steps := by
      have := hle q hq
      rw [Nat.succ_mul] at *
      simp [pySlice, ← hK]
      omega
    have l2 : (pySlice bw.S_list (q * steps) ((q + 1) * steps + 1)).length = steps + 1 := by
      have := hle q hq
      rw [Nat.succ_mul] at *
      simp [pySlice, ← hS]
      omega
    obtain ⟨ξ, υ, rfl, rfl, -, -⟩ := combineFB_ok hb (by simp only [l1, l2]; omega)
    simp only [l1, l2] at hb hl e2
    refine ⟨fw, υ, ξ, fun _ => ⟨⟨hfw, hb⟩, ?_⟩⟩
    rw [← e2]
    simp only [List.length_map, List.length_range] at hl
    obtain ⟨g, rfl, hg⟩ := mapM_seq.1 hl
    refine Prod.ext (seq_congr fun i hi => ?_) rfl
    have := hg i hi
    rw [pyGet_seq _ hi, pyGet_seq _ (by omega)] at this
    exact (Except.ok.inj this).symm
  choose fw υ ξ hk using key
  have hfl : (List.range B).map f = (List.range B).map fun q =>
      ((List.range steps).map fun i => (υ q i, ξ q i), (List.range (steps + 1)).map (ξ q)) :=
    seq_congr fun q hq => (hk q hq).2
  rw [hfl] at hr
  obtain ⟨B, rfl⟩ := Nat.exists_eq_succ_of_ne_zero hB
  have hlast : ((List.range (B + 1)).map fun q =>
      ((List.range steps).map fun i => (υ q i, ξ q i), (List.range (steps + 1)).map (ξ q))).getLast? =
      some ((List.range steps).map fun i => (υ B i, ξ B i), (List.range (steps + 1)).map (ξ B)) :=
    pyLast_ok.1 (pyLast_seq _ B)
  rw [hlast] at hr
  simp only [pyLast_seq, bind_ok, Except.ok.injEq, Prod.mk.injEq, exists_eq_left'] at hr
  obtain ⟨rfl, rfl⟩ := hr
  refine ⟨hB, hK.symm, hS.symm, dt, hdt, E, w, hE, ?_, fun q hq => ⟨paren_start (hwp q hq) (hsymd q), (paren_rel (hwp q hq) (hsymd q)).1⟩,
    ?_, fw, υ, ξ, fun q hq => (hk q hq).1, ?_, ?_⟩
  · exact paren_unique (hwp 0 (by omega)) (by simpa using Paren.single _) (hsymd 0)
  · intro q hq e he
    refine paren_unique (hwp (q + 1) hq) ?_ (hsymd (q + 1))
    have hd : ((List.range (B + 1)).map E).take (q + 1) = ((List.range (B + 1)).map E).take q ++ [E q] := by
      rw [List.take_add_one]
      simp [hq]
    rw [hd]
    exact Paren.node (hwp q hq.le) (.single (E q)) he
  · simp only [List.map_flatten, List.map_map, Function.comp_def]
  · simp only [List.map_flatten, List.map_map, Function.comp_def, Nat.succ_eq_add_one, Nat.add_sub_cancel]

/-! ### Quadrature -/

omit [LinearOrder K] in
/-- Runge-Kutta step with a right hand side that does not depend on the state. -/
theorem rk4T_quad {X : Type} [AddCommGroup X] [Module K X] {f : X → K → Py X} {G : K → X} {I : X → Prop} (hf : ∀ x s, I x → f x s = .ok (G s))
    (hI : ∀ x s (a : K), I x → I (x + a • G s)) (dt t : K) (x : X) (hx : I x) :
    rk4T f dt x t = .ok (x + (dt / 6) • (G t + (4 : K) • G (t + dt / 2) + G (t + dt))) := by
  have h2 : I (x + (1 / 2 : K) • dt • G t) := by rw [smul_smul]; exact hI _ _ _ hx
  have h3 : I (x + (1 / 2 : K) • dt • G (t + dt / 2)) := by rw [smul_smul]; exact hI _ _ _ hx
  have h4 : I (x + dt • G (t + dt / 2)) := hI _ _ _ hx
  unfold rk4T
  simp only [hf _ _ hx, bind, Except.bind, pure, Except.pure]
  rw [hf _ _ h2]
  simp only
  rw [hf _ _ h3]
  simp only
  rw [hf _ _ h4]
  simp only
  congr 2
  module

theorem foldlM_quad {α M ι : Type} [AddCommMonoid M] {step : α → ι → Py α} {st : M → α} {I : M → Prop} {d : ι → M}
    (h : ∀ a i, I a → step (st a) i = .ok (st (a + d i)) ∧ I (a + d i)) : ∀ (l : List ι) (a : M), I a →
    l.foldlM step (st a) = .ok (st (a + (l.map d).sum))
  | [], a, _ => by simp [pure, Except.pure]
  | i :: l, a, ha => by
    rw [List.foldlM_cons, (h a i ha).1]
    show l.foldlM step (st (a + d i)) = _
    rw [foldlM_quad h l _ (h a i ha).2, List.map_cons, List.sum_cons, add_assoc]

/-- Simpson's rule on the interval of length `dt` at `t`. -/
def simpson {X : Type} [AddCommGroup X] [Module K X] (g : K → X) (dt t : K) : X :=
  (dt / 6) • (g t + (4 : K) • g (t + dt / 2) + g (t + dt))

omit [LinearOrder K] in
theorem simpson_rev {X : Type} [AddCommGroup X] [Module K X] [CharZero K] (g : K → X) (dt t : K) :
    (-dt / 6) • (-g (t + dt) + (4 : K) • -g (t + dt + -dt / 2) + -g (t + dt + -dt)) = simpson g dt t := by
  unfold simpson
  have e1 : t + dt + -dt / 2 = t + dt / 2 := by ring
  have e2 : t + dt + -dt = t := by ring
  rw [e1, e2]
  module

omit [LinearOrder K] in
theorem symPart_of_symm [CharZero K] {S : Matrix (Fin n) (Fin n) K} (h : Sᵀ = S) : symPart S = S := by
  unfold symPart
  rw [h, ← two_smul K S, smul_smul]
  norm_num

omit [LinearOrder K] in
/-- Step of an element when the right hand side only depends on time along a family of elements. -/
theorem elemStep_quad [CharZero K]
    {f : Matrix (Fin n) (Fin (3 * n + 2)) K → K → Py (Matrix (Fin n) (Fin (3 * n + 2)) K)}
    {G : K → Elem n K} {I : Elem n K → Prop} (hf : ∀ x s, I (unpackABCEJ x) → f x s = .ok (packABCEJ (G s)))
    (hI : ∀ x s (a : K), I (unpackABCEJ x) → I (unpackABCEJ (x + a • packABCEJ (G s))))
    (hs : ∀ s, (G s).Sym) (dt t : K) (e : Elem n K) (he : I e) (hes : e.Sym) :
    CLQT.elemStep f dt t e = .ok ⟨e.A + (dt / 6) • ((G t).A + (4 : K) • (G (t + dt / 2)).A + (G (t + dt)).A),
      e.b + (dt / 6) • ((G t).b + (4 : K) • (G (t + dt / 2)).b + (G (t + dt)).b),
      e.C + (dt / 6) • ((G t).C + (4 : K) • (G (t + dt / 2)).C + (G (t + dt)).C),
      e.eta + (dt / 6) • ((G t).eta + (4 : K) • (G (t + dt / 2)).eta + (G (t + dt)).eta),
      e.J + (dt / 6) • ((G t).J + (4 : K) • (G (t + dt / 2)).J + (G (t + dt)).J)⟩ := by
  unfold CLQT.elemStep
  dsimp only
  rw [rk4T_quad (I := fun x => I (unpackABCEJ x)) hf hI dt t _ (by rwa [unpack_packABCEJ])]
  have hu : unpackABCEJ (packABCEJ e + (dt / 6) • (packABCEJ (G t) + (4 : K) • packABCEJ (G (t + dt / 2)) + packABCEJ (G (t + dt)))) =
      ⟨e.A + (dt / 6) • ((G t).A + (4 : K) • (G (t + dt / 2)).A + (G (t + dt)).A),
      e.b + (dt / 6) • ((G t).b + (4 : K) • (G (t + dt / 2)).b + (G (t + dt)).b),
      e.C + (dt / 6) • ((G t).C + (4 : K) • (G (t + dt / 2)).C + (G (t + dt)).C),
      e.eta + (dt / 6) • ((G t).eta + (4 : K) • (G (t + dt / 2)).eta + (G (t + dt)).eta),
      e.J + (dt / 6) • ((G t).J + (4 : K) • (G (t + dt / 2)).J + (G (t + dt)).J)⟩ := by
    have h0 := unpack_packABCEJ e
    have h1 := unpack_packABCEJ (G t)
    have h2 := unpack_packABCEJ (G (t + dt / 2))
    have h3 := unpack_packABCEJ (G (t + dt))
    generalize packABCEJ e = x0 at *
    generalize packABCEJ (G t) = x1 at *
    generalize packABCEJ (G (t + dt / 2)) = x2 at *
    generalize packABCEJ (G (t + dt)) = x3 at *
    rw [← h0, ← h1, ← h2, ← h3]
    rfl
  simp only [bind, Except.bind, pure, Except.pure, hu]
  congr 2
  · apply symPart_of_symm
    simp only [transpose_add, transpose_smul, hes.1, (hs _).1]
  · apply symPart_of_symm
    simp only [transpose_add, transpose_smul, hes.2, (hs _).2]

omit [LinearOrder K] in
theorem unpack_add_smul (x y : Matrix (Fin n) (Fin (3 * n + 2)) K) (a : K) :
    unpackABCEJ (x + a • y) = ⟨(unpackABCEJ x).A + a • (unpackABCEJ y).A, (unpackABCEJ x).b + a • (unpackABCEJ y).b,
      (unpackABCEJ x).C + a • (unpackABCEJ y).C, (unpackABCEJ x).eta + a • (unpackABCEJ y).eta,
      (unpackABCEJ x).J + a • (unpackABCEJ y).J⟩ := rfl

/-- The block element when only the offset acts. -/
theorem CLQT.blockElem_offset [CharZero K] (P : CLQT n m K) (hF : ∀ t, P.F t = 0) (hL : ∀ t, P.L t = 0) (hH : ∀ t, P.H t = 0)
    (hU : ∀ t, ∃ Y, solvePos (P.U t) (P.L t)ᵀ = .ok Y) (forward : Bool) (steps : ℕ) (dt t0 : K) (k : ℕ) :
    P.blockElem forward steps dt t0 k =
      .ok ⟨1, ((List.range steps).map fun i : ℕ => simpson P.c dt (t0 + (k * steps + i) * dt)).sum, 0, 0, 0⟩ := by
  set I : Elem n K → Prop := fun e => e.A = 1 ∧ e.C = 0 ∧ e.eta = 0 ∧ e.J = 0 with hIdef
  have hsym : (⟨1, 0, 0, 0, 0⟩ : Elem n K).Sym := ⟨transpose_zero, transpose_zero⟩
  cases forward with
  | true =>
    set G : K → Elem n K := fun s => ⟨0, P.c s, 0, 0, 0⟩ with hG
    have hf : ∀ x s, I (unpackABCEJ x) → P.bwpassFwOdeF x s = .ok (packABCEJ (G s)) := by
      intro x s hx
      obtain ⟨Y, hY⟩ := hU s
      unfold CLQT.bwpassFwOdeF
      obtain ⟨h1, h2, h3, h4⟩ := hx
      simp only [hY, bind, Except.bind, pure, Except.pure]
      simp only [hF, hL, hH, h2]
      simp [hG]
    have hI : ∀ x s (a : K), I (unpackABCEJ x) → I (unpackABCEJ (x + a • packABCEJ (G s))) := by
      intro x s a hx
      rw [unpack_add_smul, unpack_packABCEJ]
      simpa [hIdef, hG] using hx
    have hstep : ∀ (b : Fin n → K) (i : ℕ), True →
        CLQT.elemStep P.bwpassFwOdeF dt (t0 + (k * steps + i) * dt) ⟨1, b, 0, 0, 0⟩ =
          .ok ⟨1, b + simpson P.c dt (t0 + (k * steps + i) * dt), 0, 0, 0⟩ ∧ True := by
      intro b i _
      rw [elemStep_quad hf hI (fun s => ⟨transpose_zero, transpose_zero⟩) _ _ ⟨1, b, 0, 0, 0⟩ ⟨rfl, rfl, rfl, rfl⟩ ⟨transpose_zero, transpose_zero⟩]
      simp [hG, simpson]
    have := foldlM_quad (step := fun e (i : ℕ) => CLQT.elemStep P.bwpassFwOdeF dt (t0 + (k * steps + i) * dt) e)
      (d := fun i : ℕ => simpson P.c dt (t0 + (k * steps + i) * dt)) (st := fun b : Fin n → K => (⟨1, b, 0, 0, 0⟩ : Elem n K)) (I := fun _ => True) hstep (List.range steps) 0 trivial
    rw [zero_add] at this
    exact this
  | false =>
    set G : K → Elem n K := fun s => ⟨0, -P.c s, 0, 0, 0⟩ with hG
    have hf : ∀ x s, I (unpackABCEJ x) → P.bwpassBwOdeF x s = .ok (packABCEJ (G s)) := by
      intro x s hx
      obtain ⟨Y, hY⟩ := hU s
      unfold CLQT.bwpassBwOdeF
      obtain ⟨h1, h2, h3, h4⟩ := hx
      simp only [hY, bind, Except.bind, pure, Except.pure]
      simp only [hF, hL, hH, h1, h3, h4]
      simp [hG]
    have hI : ∀ x s (a : K), I (unpackABCEJ x) → I (unpackABCEJ (x + a • packABCEJ (G s))) := by
      intro x s a hx
      rw [unpack_add_smul, unpack_packABCEJ]
      simpa [hIdef, hG] using hx
    have hstep : ∀ (b : Fin n → K) (i : ℕ), True →
        CLQT.elemStep P.bwpassBwOdeF (-dt) (t0 + (k * steps + i + 1) * dt) ⟨1, b, 0, 0, 0⟩ =
          .ok ⟨1, b + simpson P.c dt (t0 + (k * steps + i) * dt), 0, 0, 0⟩ ∧ True := by
      intro b i _
      have e : t0 + (k * steps + i + 1) * dt = t0 + (k * steps + i) * dt + dt := by ring
      rw [elemStep_quad hf hI (fun s => ⟨transpose_zero, transpose_zero⟩) _ _ ⟨1, b, 0, 0, 0⟩ ⟨rfl, rfl, rfl, rfl⟩ ⟨transpose_zero, transpose_zero⟩, e,
        ← simpson_rev]
      simp [hG]
    have := foldlM_quad (step := fun e (i : ℕ) => CLQT.elemStep P.bwpassBwOdeF (-dt) (t0 + (k * steps + i + 1) * dt) e)
      (d := fun i : ℕ => simpson P.c dt (t0 + (k * steps + i) * dt)) (st := fun b : Fin n → K => (⟨1, b, 0, 0, 0⟩ : Elem n K)) (I := fun _ => True) hstep (List.range steps).reverse 0 trivial
    rw [zero_add, List.map_reverse, List.sum_reverse] at this
    exact this

/-- The block element when only the state cost acts. -/
theorem CLQT.blockElem_cost [CharZero K] (P : CLQT n m K) (hF : ∀ t, P.F t = 0) (hL : ∀ t, P.L t = 0) (hc : ∀ t, P.c t = 0)
    (hX : ∀ t, (P.X t)ᵀ = P.X t)
    (hU : ∀ t, ∃ Y, solvePos (P.U t) (P.L t)ᵀ = .ok Y) (forward : Bool) (steps : ℕ) (dt t0 : K) (k : ℕ) :
    P.blockElem forward steps dt t0 k =
      .ok ⟨1, 0, 0, ((List.range steps).map fun i : ℕ => simpson (fun t => ((P.H t)ᵀ * P.X t) *ᵥ P.r t) dt (t0 + (k * steps + i) * dt)).sum,
        ((List.range steps).map fun i : ℕ => simpson (fun t => (P.H t)ᵀ * P.X t * P.H t) dt (t0 + (k * steps + i) * dt)).sum⟩ := by
  set I : Elem n K → Prop := fun e => e.A = 1 ∧ e.C = 0 ∧ e.b = 0 with hIdef
  have hXs : ∀ s, ((P.H s)ᵀ * P.X s * P.H s)ᵀ = (P.H s)ᵀ * P.X s * P.H s := by
    intro s
    rw [transpose_mul, transpose_mul, transpose_transpose, hX, Matrix.mul_assoc]
  set d : ℕ → (Fin n → K) × Matrix (Fin n) (Fin n) K := fun i =>
    (simpson (fun t => ((P.H t)ᵀ * P.X t) *ᵥ P.r t) dt (t0 + (k * steps + i) * dt),
      simpson (fun t => (P.H t)ᵀ * P.X t * P.H t) dt (t0 + (k * steps + i) * dt)) with hd
  have hds : ∀ i, ((d i).2)ᵀ = (d i).2 := by
    intro i
    simp only [hd, simpson, transpose_add, transpose_smul, hXs]
  have hsum : ∀ l : List ℕ, (l.map d).sum =
      ((l.map fun i : ℕ => simpson (fun t => ((P.H t)ᵀ * P.X t) *ᵥ P.r t) dt (t0 + (k * steps + i) * dt)).sum,
        (l.map fun i : ℕ => simpson (fun t => (P.H t)ᵀ * P.X t * P.H t) dt (t0 + (k * steps + i) * dt)).sum) := by
    intro l
    induction l with
    | nil => rfl
    | cons a l ih =>
      rw [List.map_cons, List.sum_cons, ih]
      rfl
  cases forward with
  | true =>
    set G : K → Elem n K := fun s => ⟨0, 0, 0, ((P.H s)ᵀ * P.X s) *ᵥ P.r s, (P.H s)ᵀ * P.X s * P.H s⟩ with hG
    have hf : ∀ x s, I (unpackABCEJ x) → P.bwpassFwOdeF x s = .ok (packABCEJ (G s)) := by
      intro x s hx
      obtain ⟨Y, hY⟩ := hU s
      unfold CLQT.bwpassFwOdeF
      obtain ⟨h1, h2, h3⟩ := hx
      simp only [hY, bind, Except.bind, pure, Except.pure]
      simp only [hF, hL, hc, h1, h2, h3]
      simp [hG]
    have hI : ∀ x s (a : K), I (unpackABCEJ x) → I (unpackABCEJ (x + a • packABCEJ (G s))) := by
      intro x s a hx
      rw [unpack_add_smul, unpack_packABCEJ]
      simpa [hIdef, hG] using hx
    have hstep : ∀ (b : (Fin n → K) × Matrix (Fin n) (Fin n) K) (i : ℕ), b.2ᵀ = b.2 →
        CLQT.elemStep P.bwpassFwOdeF dt (t0 + (k * steps + i) * dt) ⟨1, 0, 0, b.1, b.2⟩ =
          .ok ⟨1, 0, 0, (b + d i).1, (b + d i).2⟩ ∧ ((b + d i).2)ᵀ = (b + d i).2 := by
      intro b i hb
      refine ⟨?_, by rw [Prod.snd_add, transpose_add, hb, hds]⟩
      rw [elemStep_quad hf hI (fun s => ⟨transpose_zero, hXs s⟩) _ _ ⟨1, 0, 0, b.1, b.2⟩ ⟨rfl, rfl, rfl⟩ ⟨transpose_zero, hb⟩]
      simp [hG, hd, simpson]
    have := foldlM_quad (step := fun e (i : ℕ) => CLQT.elemStep P.bwpassFwOdeF dt (t0 + (k * steps + i) * dt) e)
      (d := d) (st := fun b : (Fin n → K) × Matrix (Fin n) (Fin n) K => (⟨1, 0, 0, b.1, b.2⟩ : Elem n K)) (I := fun b => b.2ᵀ = b.2) hstep (List.range steps) 0 transpose_zero
    rw [zero_add, hsum] at this
    exact this
  | false =>
    set G : K → Elem n K := fun s => ⟨0, 0, 0, -((P.H s)ᵀ * P.X s) *ᵥ P.r s, -((P.H s)ᵀ * P.X s * P.H s)⟩ with hG
    have hf : ∀ x s, I (unpackABCEJ x) → P.bwpassBwOdeF x s = .ok (packABCEJ (G s)) := by
      intro x s hx
      obtain ⟨Y, hY⟩ := hU s
      unfold CLQT.bwpassBwOdeF
      obtain ⟨h1, h2, h3⟩ := hx
      simp only [hY, bind, Except.bind, pure, Except.pure]
      simp only [hF, hL, hc, h1]
      simp [hG]
    have hI : ∀ x s (a : K), I (unpackABCEJ x) → I (unpackABCEJ (x + a • packABCEJ (G s))) := by
      intro x s a hx
      rw [unpack_add_smul, unpack_packABCEJ]
      simpa [hIdef, hG] using hx
    have hstep : ∀ (b : (Fin n → K) × Matrix (Fin n) (Fin n) K) (i : ℕ), b.2ᵀ = b.2 →
        CLQT.elemStep P.bwpassBwOdeF (-dt) (t0 + (k * steps + i + 1) * dt) ⟨1, 0, 0, b.1, b.2⟩ =
          .ok ⟨1, 0, 0, (b + d i).1, (b + d i).2⟩ ∧ ((b + d i).2)ᵀ = (b + d i).2 := by
      intro b i hb
      refine ⟨?_, by rw [Prod.snd_add, transpose_add, hb, hds]⟩
      have e : t0 + (k * steps + i + 1) * dt = t0 + (k * steps + i) * dt + dt := by ring
      rw [elemStep_quad hf hI (fun s => ⟨transpose_zero, by simp only [hG, transpose_neg, hXs]⟩) _ _ ⟨1, 0, 0, b.1, b.2⟩ ⟨rfl, rfl, rfl⟩
        ⟨transpose_zero, hb⟩, e]
      simp only [hd, Prod.fst_add, Prod.snd_add]
      rw [← simpson_rev, ← simpson_rev]
      simp [hG, neg_mulVec]
    have := foldlM_quad (step := fun e (i : ℕ) => CLQT.elemStep P.bwpassBwOdeF (-dt) (t0 + (k * steps + i + 1) * dt) e)
      (d := d) (st := fun b : (Fin n → K) × Matrix (Fin n) (Fin n) K => (⟨1, 0, 0, b.1, b.2⟩ : Elem n K)) (I := fun b => b.2ᵀ = b.2) hstep (List.range steps).reverse 0 transpose_zero
    rw [zero_add, List.map_reverse, List.sum_reverse, hsum] at this
    exact this

end Verif
