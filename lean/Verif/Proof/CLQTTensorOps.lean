import Verif.Model.CLQTTensor
import Verif.Proof.LQTTensorFwd
import Verif.Proof.LQTTensorPar

/-! Computations on tensors that follow computations on their contents, and batches of items of any kind. -/

namespace Verif

open Matrix

section Rep
variable {α β γ δ : Type} {R : α → β → Prop} {S : γ → δ → Prop}

/-- The first computation completes exactly if the second does, and then with related results. -/
def PyRep (R : α → β → Prop) (x : Py α) : Py β → Prop
  | .ok b => ∃ a, x = .ok a ∧ R a b
  | .error _ => ∃ e, x = .error e

theorem PyRep.ok {a : α} {b : β} (h : R a b) : PyRep R (.ok a) (.ok b) := ⟨a, rfl, h⟩

theorem PyRep.bind {x : Py α} {y : Py β} {f : α → Py γ} {g : β → Py δ} (h : PyRep R x y) (hf : ∀ a b, R a b → PyRep S (f a) (g b)) :
    PyRep S (x >>= f) (y >>= g) := by
  cases y with
  | ok b => obtain ⟨a, rfl, hr⟩ := h; exact hf a b hr
  | error e => obtain ⟨e', rfl⟩ := h; exact ⟨e', rfl⟩

/-- A step that completes on the tensors only. -/
theorem PyRep.left {P : α → Prop} {x : Py α} {f : α → Py γ} {y : Py δ} (h : ∃ a, x = .ok a ∧ P a) (hf : ∀ a, P a → PyRep S (f a) y) :
    PyRep S (x >>= f) y := by
  obtain ⟨a, rfl, hp⟩ := h
  exact hf a hp

theorem PyRep.mono {R' : α → β → Prop} {x : Py α} {y : Py β} (h : PyRep R x y) (hR : ∀ a b, R a b → R' a b) : PyRep R' x y := by
  cases y with
  | ok b => obtain ⟨a, e, hr⟩ := h; exact ⟨a, e, hR a b hr⟩
  | error e => exact h

/-- The same, if what completes has a further property. -/
theorem PyRep.with {R' : α → β → Prop} {x : Py α} {y : Py β} (h : PyRep R x y) (hR : ∀ a b, y = .ok b → R a b → R' a b) : PyRep R' x y := by
  cases y with
  | ok b => obtain ⟨a, e, hr⟩ := h; exact ⟨a, e, hR a b rfl hr⟩
  | error e => exact h

theorem PyRep.mapM {f : α → Py γ} {g : β → Py δ} (hf : ∀ a b, R a b → PyRep S (f a) (g b)) {l : List α} {l' : List β} (hl : List.Forall₂ R l l') :
    PyRep (List.Forall₂ S) (l.mapM f) (l'.mapM g) := by
  induction hl with
  | nil => exact ⟨[], rfl, .nil⟩
  | @cons a b l l' h _ ih =>
    rw [List.mapM_cons, List.mapM_cons]
    exact (hf a b h).bind fun c d hc => ih.bind fun cs ds hcs => PyRep.ok (.cons hc hcs)

theorem PyRep.scanRev {body : γ → α → Py γ} {body' : δ → β → Py δ} (hb : ∀ c c' x x', S c c' → R x x' → PyRep S (body c x) (body' c' x'))
    {i : γ} {i' : δ} (hi : S i i') {l : List α} {l' : List β} (hl : List.Forall₂ R l l') :
    PyRep (fun r r' => List.Forall₂ S r.1 r'.1 ∧ S r.2 r'.2) (tfScanRev body i l) (tfScanRev body' i' l') := by
  induction hl with
  | nil => exact ⟨_, rfl, .nil, hi⟩
  | @cons x x' l l' hx _ ih =>
    rw [tfScanRev, tfScanRev]
    exact ih.bind fun r r' hr => (hb _ _ _ _ hr.2 hx).bind fun c d hc => PyRep.ok ⟨.cons hc hr.1, hc⟩

theorem PyRep.scanFwd {body : γ → α → Py γ} {body' : δ → β → Py δ} (hb : ∀ c c' x x', S c c' → R x x' → PyRep S (body c x) (body' c' x'))
    {l : List α} {l' : List β} (hl : List.Forall₂ R l l') :
    ∀ {i : γ} {i' : δ}, S i i' → PyRep (List.Forall₂ S) (tfScanFwdM body i l) (tfScanFwdM body' i' l') := by
  induction hl with
  | nil => intro i i' _; exact ⟨_, rfl, .nil⟩
  | @cons x x' l l' hx _ ih =>
    intro i i' hi
    rw [tfScanFwdM, tfScanFwdM]
    exact (hb _ _ _ _ hi hx).bind fun c d hc => (ih hc).bind fun r r' hr => PyRep.ok (.cons hc hr)

theorem forall₂_eq_self (l : List α) : List.Forall₂ (· = ·) l l := List.forall₂_same.2 fun _ _ => rfl

end Rep

/-! ### Batches -/

section Batch
variable {K β : Type} {s : List ℕ} {R : Tens K → β → Prop}

/-- A way in which a tensor of shape `s` holds data: only the entries count. -/
structure TensRel (s : List ℕ) (R : Tens K → β → Prop) : Prop where
  shape : ∀ {t b}, R t b → t.shape = s
  ext : ∀ {t t' : Tens K} {b}, R t b → t'.shape = s → (∀ i, List.Forall₂ (· < ·) i s → t'.val i = t.val i) → R t' b

/-- A batch of items. -/
abbrev Tens.Bat (s : List ℕ) (R : Tens K → β → Prop) (t : Tens K) (l : List β) : Prop := t.IsB s (fun f b => R ⟨s, f⟩ b) l

/-- A batch of batches of `N` items. -/
abbrev Tens.BatN (N : ℕ) (s : List ℕ) (R : Tens K → β → Prop) (t : Tens K) (l : List β) : Prop := l.length = N ∧ t.Bat s R l

theorem isM_rel {a b : ℕ} : TensRel [a, b] (fun (t : Tens K) (A : Matrix (Fin a) (Fin b) K) => t.IsM A) := by
  refine ⟨fun h => h.1, fun h hs e => ⟨hs, fun x y => ?_⟩⟩
  rw [e [x, y] (.cons x.2 (.cons y.2 .nil))]
  exact h.2 x y

theorem isV_rel {a : ℕ} : TensRel [a] (fun (t : Tens K) (v : Fin a → K) => t.IsV v) := by
  refine ⟨fun h => h.1, fun h hs e => ⟨hs, fun x => ?_⟩⟩
  rw [e [x] (.cons x.2 .nil)]
  exact h.2 x

theorem TensRel.bat (hR : TensRel s R) (N : ℕ) : TensRel (N :: s) (Tens.BatN N s R) := by
  refine ⟨fun h => by rw [h.2.1, h.1], fun {t t' l} h hs e => ⟨h.1, by rw [hs, h.1], fun k hk => ?_⟩⟩
  refine hR.ext (h.2.2 k hk) rfl fun i hi => ?_
  exact e (k :: i) (.cons (by rw [← h.1]; exact hk) hi)

theorem Tens.IsB.itemsR {t : Tens K} {l : List β} (h : t.Bat s R l) : ∃ ts, t.items = .ok ts ∧ List.Forall₂ R ts l := by
  obtain ⟨st, vt⟩ := t
  obtain ⟨h1, h2⟩ := h
  dsimp only at h1 h2
  subst h1
  refine ⟨_, rfl, ?_⟩
  rw [List.forall₂_iff_get]
  refine ⟨by simp, fun k hk hk' => ?_⟩
  have e := h2 k hk'
  simpa using e

theorem stack_bat (hR : TensRel s R) {ts : List (Tens K)} {l : List β} (h : List.Forall₂ R ts l) (d : List ℕ → K) :
    ∃ t, Tens.stack s d ts = .ok t ∧ t.Bat s R l := by
  have hs : (ts.all fun t => decide (t.shape = s)) = true := by
    rw [List.all_eq_true]
    intro t ht
    obtain ⟨k, hk, rfl⟩ := List.getElem_of_mem ht
    exact decide_eq_true (hR.shape (h.get hk (by rw [← h.length_eq]; exact hk)))
  refine ⟨_, if_pos hs, by rw [← h.length_eq], fun k hk => ?_⟩
  have hk' : k < ts.length := by rw [h.length_eq]; exact hk
  refine hR.ext (h.get hk' hk) rfl fun i _ => ?_
  show (match ts[k]? with | some t => t.val i | none => d i) = _
  rw [List.getElem?_eq_getElem hk']
  rfl

theorem stackAll_bat (hR : TensRel s R) {ts : List (Tens K)} {l : List β} (h : List.Forall₂ R ts l) (hne : l ≠ []) :
    ∃ t, Tens.stackAll ts = .ok t ∧ t.Bat s R l := by
  cases h with
  | nil => exact absurd rfl hne
  | @cons a b ts l h h' =>
    rw [Tens.stackAll, hR.shape h]
    exact stack_bat hR (.cons h h') _

theorem expand_bat (hR : TensRel s R) {t : Tens K} {b : β} (h : R t b) : ∃ r, t.expandDims 0 = .ok r ∧ r.Bat s R [b] := by
  have hax : tfAxis (t.shape.length + 1) 0 = .ok 0 := tfAxis_nat (a := 0) (by simp)
  refine ⟨⟨1 :: t.shape, fun i => t.val (i.eraseIdx 0)⟩, ?_, by rw [hR.shape h]; rfl, fun k hk => ?_⟩
  · rw [Tens.expandDims]
    refine bstep hax ?_
    simp [pure, Except.pure]
  · have : k = 0 := by simp at hk; omega
    subst this
    exact hR.ext h rfl fun i _ => by simp

theorem Tens.IsB.sel0 {t : Tens K} {l : List β} (h : t.Bat s R l) {k : ℕ} (hk : k < l.length) : ∃ r, t.select 0 k = .ok r ∧ R r l[k] := by
  obtain ⟨st, vt⟩ := t
  obtain ⟨h1, h2⟩ := h
  dsimp only at h1 h2
  subst h1
  have hax : tfAxis (l.length :: s).length 0 = .ok 0 := tfAxis_nat (a := 0) (by simp)
  refine ⟨_, ?_, h2 k hk⟩
  rw [Tens.select]
  refine bstep hax ?_
  exact if_pos hk

theorem Tens.IsB.sel0_fail {t : Tens K} {l : List β} (h : t.Bat s R l) {k : ℕ} (hk : l.length ≤ k) : ∃ e, t.select 0 k = .error e := by
  obtain ⟨st, vt⟩ := t
  obtain ⟨h1, h2⟩ := h
  dsimp only at h1 h2
  subst h1
  have hax : tfAxis (l.length :: s).length 0 = .ok 0 := tfAxis_nat (a := 0) (by simp)
  refine ⟨.indexError, ?_⟩
  rw [Tens.select]
  refine bstep hax ?_
  exact if_neg (Nat.not_lt.2 hk)

theorem Tens.IsB.lastR {t : Tens K} {l : List β} (h : t.Bat s R l) (hne : l ≠ []) : ∃ r, t.last = .ok r ∧ R r (l.getLast hne) := by
  have hl : 0 < l.length := List.length_pos_iff.2 hne
  obtain ⟨r, e, hr⟩ := h.sel0 (k := l.length - 1) (by omega)
  refine ⟨r, ?_, by rw [List.getLast_eq_getElem]; exact hr⟩
  rw [Tens.last, h.1]
  obtain ⟨m, hm⟩ : ∃ m, l.length = m + 1 := ⟨l.length - 1, by omega⟩
  rw [hm]
  rw [hm] at e
  exact e

theorem Tens.IsB.last_fail {t : Tens K} {l : List β} (h : t.Bat s R l) (hl : l = []) : ∃ e, t.last = .error e := by
  subst hl
  exact ⟨.indexError, by rw [Tens.last, h.1]; rfl⟩

theorem Tens.IsB.pushDrop (hR : TensRel s R) {t x : Tens K} {l : List β} {b : β} (h : t.Bat s R l) (hx : R x b) :
    ∃ r, t.pushDrop x = .ok r ∧ r.Bat s R l := by
  obtain ⟨x', e1, h1⟩ := expand_bat hR hx
  obtain ⟨c, e2, h2⟩ := h.concat h1
  obtain ⟨r, e3, h3⟩ := h2.init
  refine ⟨r, ?_, by simpa using h3⟩
  rw [Tens.pushDrop]
  exact bstep e1 (bstep e2 e3)

theorem Tens.IsB.ends {t : Tens K} {l : List β} (h : t.Bat s R l) (forward : Bool) :
    PyRep R (t.endOf forward) (if forward then pyLast l else pyGet l 0) := by
  cases forward
  · cases l with
    | nil => obtain ⟨e, he⟩ := h.sel0_fail (k := 0) (by simp); exact ⟨e, he⟩
    | cons b l => exact h.sel0 (k := 0) (by simp)
  · cases l with
    | nil => obtain ⟨e, he⟩ := h.last_fail rfl; exact ⟨e, he⟩
    | cons b l =>
      obtain ⟨r, e, hr⟩ := h.lastR (by simp)
      have : pyLast (b :: l) = .ok ((b :: l).getLast (by simp)) := by
        simp [pyLast, List.getLast?_eq_some_getLast]
      show PyRep R t.last (pyLast (b :: l))
      rw [this]
      exact ⟨r, e, hr⟩

theorem Tens.IsB.size0R {t : Tens K} {l : List β} (h : t.Bat s R l) : t.size 0 = .ok l.length := by
  rw [Tens.size, h.1]
  exact bstep (tfAxis_nat (a := 0) (by simp)) rfl

theorem Tens.IsB.sub {t : Tens K} {L : List (List β)} {N M lo : ℕ} (h : t.Bat (N :: s) (Tens.BatN N s R) L) (hM : M + lo ≤ N) :
    ∃ r, t.slice 1 lo (M + lo) = .ok r ∧ r.Bat (M :: s) (Tens.BatN M s R) (L.map fun l => (l.drop lo).take M) := by
  obtain ⟨st, vt⟩ := t
  obtain ⟨h1, h2⟩ := h
  dsimp only at h1 h2
  subst h1
  have hax : tfAxis (L.length :: N :: s).length 1 = .ok 1 := tfAxis_nat (a := 1) (by simp)
  refine ⟨⟨L.length :: M :: s, fun i => vt (i.set 1 (i.getD 1 0 + lo))⟩, ?_, by simp, fun k hk => ?_⟩
  · rw [Tens.slice]
    refine bstep hax ?_
    simp [pure, Except.pure, Nat.min_eq_left hM]
  · rw [List.length_map] at hk
    obtain ⟨e1, e2, e3⟩ := h2 k hk
    have hl : ((L[k].drop lo).take M).length = M := by simp; omega
    simp only [List.getElem_map]
    refine ⟨hl, by rw [hl], fun j hj => ?_⟩
    rw [hl] at hj
    have := e3 (j + lo) (by omega)
    simp only [List.getElem_take, List.getElem_drop]
    simp only [Nat.add_comm j lo] at this
    simpa [Nat.add_comm] using this

theorem Tens.IsB.size1R {t : Tens K} {L : List (List β)} {N : ℕ} (h : t.Bat (N :: s) (Tens.BatN N s R) L) : t.size 1 = .ok N := by
  rw [Tens.size, h.1]
  exact bstep (tfAxis_nat (a := 1) (by simp)) rfl

theorem Tens.IsB.tail1 {t : Tens K} {L : List (List β)} {N : ℕ} (h : t.Bat ((N + 1) :: s) (Tens.BatN (N + 1) s R) L) :
    ∃ r, t.tail1 = .ok r ∧ r.Bat (N :: s) (Tens.BatN N s R) (L.map List.tail) := by
  obtain ⟨r, e, hr⟩ := h.sub (M := N) (lo := 1) le_rfl
  refine ⟨r, ?_, ?_⟩
  · rw [Tens.tail1]; exact bstep h.size1R e
  · have : (L.map fun l => (l.drop 1).take N) = L.map List.tail := by
      refine List.map_congr_left fun l hl => ?_
      obtain ⟨k, hk, rfl⟩ := List.getElem_of_mem hl
      rw [List.drop_one, List.take_of_length_le]
      rw [List.length_tail, (h.2 k hk).1]
      omega
    rwa [this] at hr

theorem Tens.IsB.init1 {t : Tens K} {L : List (List β)} {N : ℕ} (h : t.Bat ((N + 1) :: s) (Tens.BatN (N + 1) s R) L) :
    ∃ r, t.init1 = .ok r ∧ r.Bat (N :: s) (Tens.BatN N s R) (L.map List.dropLast) := by
  obtain ⟨r, e, hr⟩ := h.sub (M := N) (lo := 0) (by omega)
  refine ⟨r, ?_, ?_⟩
  · rw [Tens.init1]; exact bstep h.size1R e
  · have : (L.map fun l => (l.drop 0).take N) = L.map List.dropLast := by
      refine List.map_congr_left fun l hl => ?_
      obtain ⟨k, hk, rfl⟩ := List.getElem_of_mem hl
      rw [List.drop_zero, List.dropLast_eq_take, (h.2 k hk).1]
      rfl
    rwa [this] at hr

theorem flattenN_get {N : ℕ} {L : List (List β)} (hL : ∀ l ∈ L, l.length = N) {q r : ℕ} (hq : q < L.length) (hr : r < N) :
    L.flatten[q * N + r]? = (L[q])[r]? := by
  induction L generalizing q with
  | nil => simp at hq
  | cons l L ih =>
    have hl : l.length = N := hL l (by simp)
    cases q with
    | zero => simp only [List.flatten_cons, List.getElem_cons_zero, Nat.zero_mul, Nat.zero_add]
              rw [List.getElem?_append_left (by omega)]
    | succ q =>
      simp only [List.flatten_cons, List.getElem_cons_succ]
      rw [List.getElem?_append_right (by rw [hl, Nat.succ_mul]; omega), hl,
        show (q + 1) * N + r - N = q * N + r by rw [Nat.succ_mul]; omega]
      exact ih (fun l hl => hL l (by simp [hl])) (by simpa using hq)

theorem flattenN_len {N : ℕ} {L : List (List β)} (hL : ∀ l ∈ L, l.length = N) : L.flatten.length = L.length * N := by
  rw [List.length_flatten, List.eq_replicate_of_mem (a := N) (l := L.map List.length) (by simpa using hL)]
  simp

theorem Tens.IsB.merge (hR : TensRel s R) {t : Tens K} {L : List (List β)} {N : ℕ} (h : t.Bat (N :: s) (Tens.BatN N s R) L) :
    ∃ r, t.mergeAxes = .ok r ∧ r.Bat s R L.flatten := by
  have hL : ∀ l ∈ L, l.length = N := by
    intro l hl
    obtain ⟨k, hk, rfl⟩ := List.getElem_of_mem hl
    exact (h.2 k hk).1
  obtain ⟨st, vt⟩ := t
  obtain ⟨h1, h2⟩ := h
  dsimp only at h1 h2
  subst h1
  have hp : (L.length :: N :: s).prod = (L.length * N :: s).prod := by simp [Nat.mul_assoc]
  refine ⟨_, if_pos hp, by rw [flattenN_len hL], fun k hk => ?_⟩
  rw [flattenN_len hL] at hk
  have hN : 0 < N := Nat.pos_of_ne_zero (by rintro rfl; simp at hk)
  have hq : k / N < L.length := (Nat.div_lt_iff_lt_mul hN).2 hk
  have hr : k % N < N := Nat.mod_lt _ hN
  obtain ⟨e1, e2, e3⟩ := h2 (k / N) hq
  have hb := e3 (k % N) (by omega)
  have hg : L.flatten[k]'(by rw [flattenN_len hL]; exact hk) = L[k / N][k % N]'(by omega) := by
    have := flattenN_get hL hq hr
    rw [Nat.mul_comm, Nat.div_add_mod] at this
    rw [List.getElem?_eq_getElem (by rw [flattenN_len hL]; exact hk), List.getElem?_eq_getElem (by omega)] at this
    exact Option.some.inj this
  rw [hg]
  refine hR.ext hb rfl fun i hi => ?_
  show vt (unravel (L.length :: N :: s) (ravel (L.length * N :: s) (k :: i))) = vt (k / N :: k % N :: i)
  have : ravel (L.length * N :: s) (k :: i) = ravel (L.length :: N :: s) (k / N :: k % N :: i) := by
    have e := Nat.div_add_mod k N
    simp only [ravel, List.prod_cons]
    calc k * s.prod + ravel s i = (N * (k / N) + k % N) * s.prod + ravel s i := by rw [e]
      _ = _ := by ring
  rw [this, unravel_ravel (.cons hq (.cons hr hi))]

theorem Tens.IsB.split (hR : TensRel s R) {t : Tens K} {l : List β} {B S : ℕ} (h : t.Bat s R l) (hl : l.length = B * S) :
    ∃ r, t.reshape (B :: S :: s) = .ok r ∧
      r.Bat (S :: s) (Tens.BatN S s R) ((List.range B).map fun q => Verif.pySlice l (q * S) ((q + 1) * S)) := by
  obtain ⟨st, vt⟩ := t
  obtain ⟨h1, h2⟩ := h
  dsimp only at h1 h2
  subst h1
  have hp : (l.length :: s).prod = (B :: S :: s).prod := by simp [hl, Nat.mul_assoc]
  refine ⟨_, if_pos hp, by simp, fun q hq => ?_⟩
  rw [List.length_map, List.length_range] at hq
  simp only [List.getElem_map, List.getElem_range]
  have hb : (q + 1) * S ≤ B * S := Nat.mul_le_mul_right _ hq
  have hsl : (Verif.pySlice l (q * S) ((q + 1) * S)).length = S := by
    rw [Verif.pySlice, List.length_take, List.length_drop, hl, Nat.succ_mul]
    rw [Nat.succ_mul] at hb
    omega
  refine ⟨hsl, by rw [hsl], fun r hr => ?_⟩
  rw [hsl] at hr
  have hk : q * S + r < l.length := by rw [Nat.succ_mul] at hb; omega
  have hg : (Verif.pySlice l (q * S) ((q + 1) * S))[r]'(by rw [hsl]; exact hr) = l[q * S + r] := by simp [Verif.pySlice]
  rw [hg]
  refine hR.ext (h2 _ hk) rfl fun i hi => ?_
  show vt (unravel (l.length :: s) (ravel (B :: S :: s) (q :: r :: i))) = vt ((q * S + r) :: i)
  have : ravel (B :: S :: s) (q :: r :: i) = ravel (l.length :: s) ((q * S + r) :: i) := by
    simp only [ravel, List.prod_cons]; ring
  rw [this, unravel_ravel (.cons hk hi)]

theorem Tens.IsB.split_fail {t : Tens K} {l : List β} {B S : ℕ} (h : t.Bat s R l) (hl : l.length ≠ B * S) (hs : 0 < s.prod) :
    ∃ e, t.reshape (B :: S :: s) = .error e := by
  refine ⟨.valueError, if_neg ?_⟩
  rw [h.1]
  simp only [List.prod_cons, ← Nat.mul_assoc]
  intro e
  exact hl (Nat.eq_of_mul_eq_mul_right hs e)

end Batch

end Verif
