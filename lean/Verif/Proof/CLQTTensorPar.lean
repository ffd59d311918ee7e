import Verif.Proof.CLQTTensor
import Verif.Proof.LQTTensorPar

/-! The parallel passes of `clqt_tf.py` on tensors. -/

namespace Verif

open Matrix

variable {n m : ℕ} {K : Type}

theorem PyRep.right {α β γ : Type} {S : α → γ → Prop} {x : Py α} {b : β} {f : β → Py γ} (h : PyRep S x (f b)) : PyRep S x (Except.ok b >>= f) := h

theorem pyLast_ne {α : Type} {l : List α} (h : l ≠ []) : pyLast l = .ok (l.getLast h) := by
  obtain ⟨a, l, rfl⟩ := List.exists_cons_of_ne_nil h
  simp [pyLast, List.getLast?_eq_some_getLast]

theorem pyEnd_map {α β : Type} (f : α → β) (l : List α) (forward : Bool) : (if forward = true then pyLast (l.map f) else pyGet (l.map f) 0) =
    (if forward = true then pyLast l else pyGet l 0) >>= fun a => .ok (f a) := by
  cases l with
  | nil => cases forward <;> rfl
  | cons a l =>
    cases forward
    · rfl
    · have h : (List.map f (a :: l)) ≠ [] := by simp
      simp only [if_true]
      rw [pyLast_ne h, pyLast_ne (l := a :: l) (by simp), List.getLast_map]
      rfl

theorem Tens.IsB.endsMap {s : List ℕ} {α β : Type} {R : Tens K → β → Prop} {f : α → β} {t : Tens K} {l : List α} (h : t.Bat s R (l.map f)) {forward : Bool} {a : α}
    (ha : (if forward = true then pyLast l else pyGet l 0) = .ok a) : ∃ r, t.endOf forward = .ok r ∧ R r (f a) := by
  have k := h.ends forward
  rw [pyEnd_map, ha] at k
  exact k

theorem Tens.IsB.endsFail {s : List ℕ} {α β : Type} {R : Tens K → β → Prop} {f : α → β} {t : Tens K} {l : List α} (h : t.Bat s R (l.map f)) {forward : Bool} {e : PyErr}
    (ha : (if forward = true then pyLast l else pyGet l 0) = .error e) : ∃ e', t.endOf forward = .error e' := by
  have k := h.ends forward
  rw [pyEnd_map, ha] at k
  exact k

theorem Tens.IsM.col1 {a b : ℕ} {t : Tens K} {A : Matrix (Fin a) (Fin b) K} (h : t.IsM A) (hb : 0 < b) :
    ∃ r, t.select 1 0 = .ok r ∧ r.IsV (fun i : Fin a => A i ⟨0, hb⟩) := by
  obtain ⟨r, e, hr⟩ := h.colL 0 hb
  refine ⟨r, ?_, hr⟩
  rw [← e, Tens.select, Tens.select, h.1]
  rfl

theorem Tens.IsB.hM {α : Type} {a b : ℕ} {t : Tens K} {l : List α} {f : α → Matrix (Fin a) (Fin b) K}
    (h : t.Bat [a, b] (fun t (A : Matrix (Fin a) (Fin b) K) => t.IsM A) (l.map f)) : t.HM l f := Tens.IsMt.remap h.holdsM (by simp)

theorem Tens.IsB.hV {α : Type} {a : ℕ} {t : Tens K} {l : List α} {f : α → Fin a → K}
    (h : t.Bat [a] (fun t (A : Fin a → K) => t.IsV A) (l.map f)) : t.HV l f := Tens.IsVt.remap h.holdsV (by simp)

theorem Tens.IsMt.bat {α : Type} {a b : ℕ} {t : Tens K} {l : List α} {f : α → Matrix (Fin a) (Fin b) K} (h : t.HM l f) :
    t.Bat [a, b] (fun t (A : Matrix (Fin a) (Fin b) K) => t.IsM A) (l.map f) := Tens.HoldsM.bat (h.remap (by simp))

theorem Tens.IsVt.bat {α : Type} {a : ℕ} {t : Tens K} {l : List α} {f : α → Fin a → K} (h : t.HV l f) :
    t.Bat [a] (fun t (A : Fin a → K) => t.IsV A) (l.map f) := Tens.HoldsV.bat (h.remap (by simp))

theorem Tens.IsB.len {s : List ℕ} {β : Type} {R : Tens K → β → Prop} {t : Tens K} {L : List (List β)} {N : ℕ} (h : t.Bat (N :: s) (Tens.BatN N s R) L) :
    ∀ l ∈ L, l.length = N := by
  intro l hl
  obtain ⟨k, hk, rfl⟩ := List.getElem_of_mem hl
  exact (h.2 k hk).1

variable [Field K]

section Ordered
variable [LinearOrder K] {p : TensCLQT K} {P : CLQT n m K}

/-! ### Elements of the blocks -/

omit [LinearOrder K] in
theorem elem0_rep (hn : 0 < n) : ∃ r : TensElem K, tensElem0 n = .ok r ∧ r.One (⟨1, 0, 0, 0, 0⟩ : Elem n K) := by
  obtain ⟨r, e, hr⟩ := (eye2_isM (K := K) n).col1 hn
  exact ⟨_, bstep e (bstep e rfl), eye2_isM n, hr.zeroV, (eye2_isM n).zeroM, hr.zeroV, (eye2_isM n).zeroM⟩

omit [LinearOrder K] in
theorem elemBody_rep {f : Tens K → K → Py (Tens K)} {g : Matrix (Fin n) (Fin (3 * n + 2)) K → K → Unit → Py (Matrix (Fin n) (Fin (3 * n + 2)) K)}
    (hf : ∀ t x s, Tens.IsM t x → PyRep (fun (r : Tens K) Y => r.IsM Y) (f t s) (g x s ())) (h : K) {te : TensElem K} {e : Elem n K} (he : te.One e) (τ : K) :
    PyRep TensElem.One (tensElemBody f h te τ) (tfElemBody g h e τ) := by
  unfold tensElemBody tfElemBody
  refine .left (packAbcej_rep he) fun x hx => ?_
  refine (rk4_rep linM hf hx h τ).bind fun y Y hy => ?_
  have hu := unpackAbcej_rep hy
  generalize unpackABCEJTF Y = q at hu ⊢
  obtain ⟨A, b, C, eta, J⟩ := q
  refine .left hu fun r hr => ?_
  obtain ⟨tA, tb, tC, teta, tJ⟩ := r
  obtain ⟨hA, hb, hC, heta, hJ⟩ := hr
  dsimp only at hA hb hC heta hJ ⊢
  refine .left hC.sym fun C1 hC1 => ?_
  refine .left hJ.sym fun J1 hJ1 => ?_
  exact .ok ⟨hA, hb, hC1, heta, hJ1⟩

theorem tfBlockElem_eq (P : CLQT n m K) (forward : Bool) (steps : ℕ) (dt t0 : K) : P.tfBlockElem forward steps dt t0 =
    ((if forward then tfScanFwdM (fun e t => tfElemBody P.tfElemFwF dt e t) ⟨1, 0, 0, 0, 0⟩ (tfTimes steps dt t0)
      else do return (← tfScanRev (fun e t => tfElemBody P.tfElemBwF (-dt) e (t + dt)) ⟨1, 0, 0, 0, 0⟩ (tfTimes steps dt t0)).1) >>=
      fun es => if forward = true then pyLast es else pyGet es 0) := by
  unfold CLQT.tfBlockElem
  cases forward
  · simp only [Bool.false_eq_true, if_false, bind_assoc, pure_bind]
  · rfl

theorem blockElem_rep (hp : p.Holds P) (forward : Bool) (steps : ℕ) (dt : K) {te : TensElem K} (he : te.One (⟨1, 0, 0, 0, 0⟩ : Elem n K)) (t0 : K) :
    PyRep TensElem.One (tensBlockElem p forward steps dt te t0) (P.tfBlockElem forward steps dt t0) := by
  rw [tfBlockElem_eq]
  unfold tensBlockElem
  dsimp only
  rw [times_eq]
  refine PyRep.bind (R := fun r r' => List.Forall₂ TensElem.One r r') ?_ fun es es' hes => ?_
  · cases forward
    · refine PyRep.bind (PyRep.scanRev (R := (· = ·)) (S := TensElem.One) (fun c c' x x' hc hx => ?_) he (forall₂_eq_self _)) fun r r' hr => .ok hr.1
      subst hx
      exact elemBody_rep (fun t x s h => elemBwF_rep hp s h) _ hc _
    · refine PyRep.scanFwd (R := (· = ·)) (S := TensElem.One) (fun c c' x x' hc hx => ?_) (forall₂_eq_self _) he
      subst hx
      exact elemBody_rep (fun t x s h => elemFwF_rep hp s h) _ hc _
  · refine .left (stackT isM_rel he.A (forall₂_maps hes fun a b h => h.A)) fun As hA => ?_
    refine .left (stackT isV_rel he.b (forall₂_maps hes fun a b h => h.b)) fun bs hb => ?_
    refine .left (stackT isM_rel he.C (forall₂_maps hes fun a b h => h.C)) fun Cs hC => ?_
    refine .left (stackT isV_rel he.eta (forall₂_maps hes fun a b h => h.eta)) fun etas heta => ?_
    refine .left (stackT isM_rel he.J (forall₂_maps hes fun a b h => h.J)) fun Js hJ => ?_
    refine .left (hA.pushDrop isM_rel he.A) fun As hA => ?_
    refine .left (hb.pushDrop isV_rel he.b) fun bs hb => ?_
    refine .left (hC.pushDrop isM_rel he.C) fun Cs hC => ?_
    refine .left (heta.pushDrop isV_rel he.eta) fun etas heta => ?_
    refine .left (hJ.pushDrop isM_rel he.J) fun Js hJ => ?_
    cases hz : (if forward = true then pyLast es' else pyGet es' 0) with
    | error e =>
      obtain ⟨e', h'⟩ := hA.endsFail hz
      exact ⟨e', by rw [h']; rfl⟩
    | ok z =>
      refine .left (hA.endsMap hz) fun A hA => ?_
      refine .left (hb.endsMap hz) fun b hb => ?_
      refine .left (hC.endsMap hz) fun C hC => ?_
      refine .left (heta.endsMap hz) fun eta heta => ?_
      refine .left (hJ.endsMap hz) fun J hJ => ?_
      exact .ok ⟨hA, hb, hC, heta, hJ⟩

theorem clqtParInit_rep (hp : p.Holds P) (hn : 0 < n) (forward : Bool) {blocks : ℕ} (hB : 0 < blocks) (steps : ℕ) (dt t0 : K) {ST vT : Tens K}
    {ST' : Matrix (Fin n) (Fin n) K} {vT' : Fin n → K} (hS : ST.IsM ST') (hv : vT.IsV vT') :
    PyRep (fun t es => t.Holds es ∧ es.length = blocks + 1) (tensClqtParInit p forward blocks steps dt t0 ST vT)
      (P.tfParBackwardInit forward blocks steps dt t0 ST' vT') := by
  unfold tensClqtParInit CLQT.tfParBackwardInit
  refine .left ⟨_, hS.size0, rfl⟩ fun _ h => ?_
  subst h
  refine .left (elem0_rep hn) fun te he => ?_
  have hm := PyRep.mapM (R := (· = ·)) (S := TensElem.One) (f := tensBlockElem p forward steps dt te) (g := P.tfBlockElem forward steps dt)
    (fun a b h => h ▸ blockElem_rep hp forward steps dt he a) (forall₂_eq_self (tfBlockTimes blocks steps dt t0))
  refine PyRep.bind (hm.with fun r r' e h => And.intro (mapM_ok_iff.1 e).length_eq h) fun r r' hr => ?_
  obtain ⟨hl, hr⟩ := hr
  have hl : r'.length = blocks := by rw [← hl]; simp [tfBlockTimes]
  have hne' : ∀ {γ : Type} (f : Elem n K → γ), r'.map f ≠ [] := by
    intro γ f h0
    have := List.map_eq_nil_iff.1 h0
    subst this
    simp at hl
    omega
  refine .left (stackAll_bat isM_rel (forall₂_maps hr fun a b h => h.A) (hne' _)) fun As hA => ?_
  refine .left (stackAll_bat isV_rel (forall₂_maps hr fun a b h => h.b) (hne' _)) fun bs hb => ?_
  refine .left (stackAll_bat isM_rel (forall₂_maps hr fun a b h => h.C) (hne' _)) fun Cs hC => ?_
  refine .left (stackAll_bat isV_rel (forall₂_maps hr fun a b h => h.eta) (hne' _)) fun etas heta => ?_
  refine .left (stackAll_bat isM_rel (forall₂_maps hr fun a b h => h.J) (hne' _)) fun Js hJ => ?_
  have hh : (⟨As, bs, Cs, etas, Js⟩ : TensElem K).Holds r' := ⟨hA.hM, hb.hV, hC.hM, heta.hV, hJ.hM⟩
  obtain ⟨t, et, ht⟩ := push_rep (e := ⟨0, 0, 0, vT', ST'⟩) (t' := ⟨ST.map fun _ => (0 : K), te.b, te.C, vT, ST⟩) hh hS.zeroM he.b he.C hv hS
  exact ⟨t, et, ht, by simp [hl]⟩

/-! ### Parallel backward pass -/

theorem clqtExtract_rep (hp : p.Holds P) {blocks : ℕ} (hB : 0 < blocks) (steps : ℕ) (dt t0 : K) {etas Js : Tens K} {es : List (Fin n → K)}
    {Jl : List (Matrix (Fin n) (Fin n) K)} (he : etas.HoldsV es) (hJ : Js.HoldsM Jl) (l1 : es.length = blocks + 1) (l2 : Jl.length = blocks + 1) :
    PyRep TensBw.Holds (tensClqtParBackwardExtract p etas Js steps dt t0) (P.tfParBackwardExtract es Jl steps dt t0) := by
  unfold tensClqtParBackwardExtract CLQT.tfParBackwardExtract
  refine .left ⟨_, hJ.bat.size0R, rfl⟩ fun _ h => ?_
  subst h
  refine .left hJ.bat.tail fun Jt hJt => ?_
  refine .left he.bat.tail fun et het => ?_
  have hbl : (tfBlockTimes (Jl.length - 1) steps dt t0).length = blocks := by simp [tfBlockTimes, l2]
  refine PyRep.bind (clqtBwBatch_rep hp steps dt (t0 := tfBlockTimes (Jl.length - 1) steps dt t0) hJt het (by rw [hbl]; simp [l2]) (by rw [hbl]; simp [l1])
    (by intro h0; rw [h0] at hbl; simp at hbl; omega)) fun r rs hr => ?_
  obtain ⟨Ss, vs, Kxs, ds⟩ := r
  obtain ⟨hSs, hvs, hKxs, hds⟩ := hr
  dsimp only at hSs hvs hKxs hds ⊢
  refine .left hSs.tail1 fun Ss hSs => ?_
  refine .left hvs.tail1 fun vs hvs => ?_
  refine .left (hSs.merge isM_rel) fun Ss hSs => ?_
  refine .left (hvs.merge isV_rel) fun vs hvs => ?_
  refine .left (hKxs.merge isM_rel) fun Kxs hKxs => ?_
  refine .left (hds.merge isV_rel) fun ds hds => ?_
  refine PyRep.bind (hJ.bat.ends false) fun S0 S0' hS0 => ?_
  refine PyRep.bind (he.bat.ends false) fun v0 v0' hv0 => ?_
  refine .left (expand_bat isM_rel hS0) fun S1 hS1 => ?_
  refine .left (hS1.concat hSs) fun Ss hSs => ?_
  refine .left (expand_bat isV_rel hv0) fun v1 hv1 => ?_
  refine .left (hv1.concat hvs) fun vs hvs => ?_
  rw [List.map_map] at hSs hvs
  exact .ok ⟨hSs.holdsM, hvs.holdsV, hKxs.holdsM, hds.holdsV⟩

theorem clqtParBackward_rep (hp : p.Holds P) (hn : 0 < n) {scan : AScan} (hs : ∀ α, IsAssocScan (scan α)) (forward : Bool) {blocks : ℕ} (hB : 0 < blocks)
    (steps : ℕ) (dt t0 : K) {ST vT : Tens K} {ST' : Matrix (Fin n) (Fin n) K} {vT' : Fin n → K} (hS : ST.IsM ST') (hv : vT.IsV vT') :
    ∃ scan' : (Elem n K → Elem n K → Py (Elem n K)) → List (Elem n K) → Py (List (Elem n K)), (IsAssocScan scan' ∧
      ∀ D, HasDepth D (scan (TensElem K)) → HasDepth D (scan (Elem n K)) → HasDepth D scan') ∧
      PyRep TensBw.Holds (tensClqtParBackward p scan blocks steps dt t0 ST vT forward) (P.tfParBackward scan' blocks steps dt t0 ST' vT' forward) := by
  have hi := clqtParInit_rep hp hn forward hB steps dt t0 hS hv
  cases h0 : P.tfParBackwardInit forward blocks steps dt t0 ST' vT' with
  | error e =>
    rw [h0] at hi
    obtain ⟨e', he⟩ := hi
    refine ⟨scan _, ⟨hs _, fun _ _ h => h⟩, ?_⟩
    unfold CLQT.tfParBackward tensClqtParBackward
    rw [h0, he]
    exact ⟨e', rfl⟩
  | ok es =>
    rw [h0] at hi
    obtain ⟨t, et, ht, hl⟩ := hi
    obtain ⟨tr, e4, htr⟩ := reverse_rep ht
    obtain ⟨scan', k0, hk⟩ := scanAssoc_rep hs (fn := tensLqtCombVRev) (op := tfCombVRev) (fun a a' b b' ha ha' => combV_rep ha' ha) htr
      (by intro h0; have := congrArg List.length h0; simp at this; simp [this] at hl)
    refine ⟨scan', k0, ?_⟩
    unfold CLQT.tfParBackward tensClqtParBackward
    rw [h0, et]
    refine PyRep.left ⟨_, rfl, rfl⟩ fun _ h => ?_
    subst h
    refine PyRep.left ⟨_, e4, rfl⟩ fun _ h => ?_
    subst h
    rcases hk with ⟨ts, rev, e5, s5, hts, hl'⟩ | ⟨e, e5, s5⟩
    · rw [e5]
      obtain ⟨vs, e6, hvs⟩ := Tens.IsVt.reverse hts.eta
      obtain ⟨Ss, e7, hSs⟩ := Tens.IsMt.reverse hts.J
      refine PyRep.left ⟨_, rfl, rfl⟩ fun _ h => ?_
      subst h
      refine PyRep.left ⟨_, e6, rfl⟩ fun _ h => ?_
      subst h
      refine PyRep.left ⟨_, e7, rfl⟩ fun _ h => ?_
      subst h
      show PyRep _ _ (scan' tfCombVRev es.reverse >>= fun r => P.tfParBackwardExtract (r.reverse.map Elem.eta) (r.reverse.map Elem.J) steps dt t0)
      rw [s5]
      exact clqtExtract_rep hp hB steps dt t0 (hvs.remap (by simp)) (hSs.remap (by simp)) (by simp [hl', hl]) (by simp [hl', hl])
    · rw [e5]
      show PyRep _ _ (scan' tfCombVRev es.reverse >>= fun r => P.tfParBackwardExtract (r.reverse.map Elem.eta) (r.reverse.map Elem.J) steps dt t0)
      rw [s5]
      exact ⟨e, rfl⟩

/-! ### Parallel forward pass -/

omit [LinearOrder K] in
theorem psiBody_rep {f : Tens K → Tens K → Tens K → K → Py (Tens K)}
    {g : Matrix (Fin n) (Fin (n + 1)) K → K → (Matrix (Fin m) (Fin n) K × (Fin m → K)) → Py (Matrix (Fin n) (Fin (n + 1)) K)}
    {G : Tens K × Tens K} {G' : Matrix (Fin m) (Fin n) K × (Fin m → K)}
    (hf : ∀ t x s, Tens.IsM t x → PyRep (fun (r : Tens K) Y => r.IsM Y) (f G.1 G.2 t s) (g x s G')) (h : K)
    {te : Tens K × Tens K} {e : Matrix (Fin n) (Fin n) K × (Fin n → K)} (he : te.1.IsM e.1 ∧ te.2.IsV e.2) (τ : K) :
    PyRep (fun r r' => r.1.IsM r'.1 ∧ r.2.IsV r'.2) (tensPsiBody f h te τ G) (tfPsiBody g h e τ G') := by
  unfold tensPsiBody tfPsiBody
  refine .left (packSv_rep he.1 he.2) fun x hx => ?_
  refine (rk4_rep linM hf hx h τ).bind fun y Y hy => ?_
  obtain ⟨r, er, hr⟩ := unpackSv_rep hy
  exact ⟨r, er, hr⟩

omit [LinearOrder K] in
theorem tfPsiElem_eq (P : CLQT n m K) (forward : Bool) (steps : ℕ) (dt t0 : K) (Kxs : List (Matrix (Fin m) (Fin n) K)) (ds : List (Fin m → K)) :
    P.tfPsiElem forward steps dt t0 Kxs ds =
    ((if forward then tfScanFwdM (fun e (i : K × Matrix (Fin m) (Fin n) K × (Fin m → K)) => tfPsiBody P.tfPsiFwF dt e i.1 i.2) (1, 0)
        ((tfTimes steps dt t0).zip (Kxs.zip ds))
      else do return (← tfScanRev (fun e (i : K × Matrix (Fin m) (Fin n) K × (Fin m → K)) => tfPsiBody P.tfPsiBwF (-dt) e (i.1 + dt) i.2) (1, 0)
        ((tfTimes steps dt t0).zip (Kxs.zip ds))).1) >>=
      fun es => if forward = true then pyLast es else pyGet es 0) := by
  unfold CLQT.tfPsiElem
  cases forward
  · simp only [Bool.false_eq_true, if_false, bind_assoc, pure_bind]
  · rfl

omit [LinearOrder K] in
theorem psiElem_rep (hp : p.Holds P) (forward : Bool) (steps : ℕ) (dt : K) {te : Tens K × Tens K} (h1 : te.1.IsM (1 : Matrix (Fin n) (Fin n) K))
    (h2 : te.2.IsV (0 : Fin n → K)) (t0 : K) {Kxs ds : Tens K} {Kl : List (Matrix (Fin m) (Fin n) K)} {dl : List (Fin m → K)}
    (hK : Kxs.BatN steps [m, n] (fun t (A : Matrix (Fin m) (Fin n) K) => t.IsM A) Kl) (hd : ds.BatN steps [m] (fun t A => t.IsV A) dl) :
    PyRep (fun r r' => r.1.IsM r'.1 ∧ r.2.IsV r'.2) (tensPsiElem p forward steps dt te t0 Kxs ds) (P.tfPsiElem forward steps dt t0 Kl dl) := by
  rw [tfPsiElem_eq]
  unfold tensPsiElem
  dsimp only
  rw [times_eq]
  refine .left hK.2.itemsR fun Ki hKi => ?_
  refine .left hd.2.itemsR fun di hdi => ?_
  rw [if_neg (by rw [hKi.length_eq, hdi.length_eq, hK.1, hd.1]; simp)]
  have hz := forall₂_zips (forall₂_eq_self (tfTimes steps dt t0)) (forall₂_zips hKi hdi)
  refine PyRep.bind (R := fun r r' => List.Forall₂ (fun (a : Tens K × Tens K) (b : Matrix (Fin n) (Fin n) K × (Fin n → K)) => a.1.IsM b.1 ∧ a.2.IsV b.2) r r')
    ?_ fun es es' hes => ?_
  · cases forward
    · refine PyRep.bind (PyRep.scanRev (S := fun (a : Tens K × Tens K) (b : Matrix (Fin n) (Fin n) K × (Fin n → K)) => a.1.IsM b.1 ∧ a.2.IsV b.2)
        (fun c c' x x' hc hx => ?_) (i' := (1, 0)) ⟨h1, h2⟩ hz) fun r r' hr => .ok hr.1
      rw [hx.1]
      exact psiBody_rep (fun t y s h => psiBwF_rep hp s hx.2.1 hx.2.2 h) _ hc _
    · refine PyRep.scanFwd (S := fun (a : Tens K × Tens K) (b : Matrix (Fin n) (Fin n) K × (Fin n → K)) => a.1.IsM b.1 ∧ a.2.IsV b.2)
        (fun c c' x x' hc hx => ?_) hz (i' := (1, 0)) ⟨h1, h2⟩
      rw [hx.1]
      exact psiBody_rep (fun t y s h => psiFwF_rep hp s hx.2.1 hx.2.2 h) _ hc _
  · refine .left (stackT isM_rel h1 (forall₂_maps hes fun a b h => h.1)) fun As hA => ?_
    refine .left (stackT isV_rel h2 (forall₂_maps hes fun a b h => h.2)) fun bs hb => ?_
    refine .left (hA.pushDrop isM_rel h1) fun As hA => ?_
    refine .left (hb.pushDrop isV_rel h2) fun bs hb => ?_
    cases hz : (if forward = true then pyLast es' else pyGet es' 0) with
    | error e =>
      obtain ⟨e', h'⟩ := hA.endsFail hz
      exact ⟨e', by rw [h']; rfl⟩
    | ok z =>
      refine .left (hA.endsMap hz) fun A hA => ?_
      refine .left (hb.endsMap hz) fun b hb => ?_
      exact .ok ⟨hA, hb⟩

omit [Field K] [LinearOrder K] in
theorem splitM_rep {Kxs : Tens K} {Kl : List (Matrix (Fin m) (Fin n) K)} (h : Kxs.HoldsM Kl) {blocks steps : ℕ} (hl : Kl.length = blocks * steps) :
    ∃ r, Kxs.splitM blocks steps = .ok r ∧ r.Bat (steps :: [m, n]) (Tens.BatN steps [m, n] (fun t (A : Matrix (Fin m) (Fin n) K) => t.IsM A))
      ((List.range blocks).map fun q => pySlice Kl (q * steps) ((q + 1) * steps)) := by
  obtain ⟨r, e, hr⟩ := h.bat.split isM_rel hl
  have s1 : Kxs.size (-2) = .ok m := by rw [Tens.size, h.1]; rfl
  have s2 : Kxs.size (-1) = .ok n := by rw [Tens.size, h.1]; rfl
  exact ⟨r, bstep s1 (bstep s2 e), hr⟩

omit [Field K] [LinearOrder K] in
theorem splitV_rep {ds : Tens K} {dl : List (Fin m → K)} (h : ds.HoldsV dl) {blocks steps : ℕ} (hl : dl.length = blocks * steps) :
    ∃ r, ds.splitV blocks steps = .ok r ∧ r.Bat (steps :: [m]) (Tens.BatN steps [m] (fun t (A : Fin m → K) => t.IsV A))
      ((List.range blocks).map fun q => pySlice dl (q * steps) ((q + 1) * steps)) := by
  obtain ⟨r, e, hr⟩ := h.bat.split isV_rel hl
  have s2 : ds.size (-1) = .ok m := by rw [Tens.size, h.1]; rfl
  exact ⟨r, bstep s2 e, hr⟩

omit [LinearOrder K] in
theorem clqtForwardInit_rep (hp : p.Holds P) (forward : Bool) {blocks steps : ℕ} (hB : 0 < blocks) (dt t0 : K) {x0 Kxs ds : Tens K} {x0' : Fin n → K}
    {Kl : List (Matrix (Fin m) (Fin n) K)} {dl : List (Fin m → K)} (hx : x0.IsV x0') (hK : Kxs.HoldsM Kl) (hd : ds.HoldsV dl)
    (l1 : Kl.length = blocks * steps) (l2 : dl.length = blocks * steps) :
    PyRep (fun t es => t.1.HM es (·.1) ∧ t.2.HV es (·.2) ∧ es.length = blocks + 1) (tensClqtParForwardInit p forward blocks steps x0 Kxs ds dt t0)
      (P.tfParForwardInit forward blocks steps x0' Kl dl dt t0) := by
  unfold tensClqtParForwardInit CLQT.tfParForwardInit tfReshape
  rw [if_pos l1, if_pos l2]
  refine PyRep.right (PyRep.right ?_)
  refine .left (splitM_rep hK l1) fun Kt hKt => ?_
  refine .left (splitV_rep hd l2) fun dt' hdt => ?_
  refine .left ⟨_, hx.sizeL, rfl⟩ fun _ h => ?_
  subst h
  refine .left hKt.itemsR fun Ki hKi => ?_
  refine .left hdt.itemsR fun di hdi => ?_
  have hm := PyRep.mapM (S := fun (r : Tens K × Tens K) (r' : Matrix (Fin n) (Fin n) K × (Fin n → K)) => r.1.IsM r'.1 ∧ r.2.IsV r'.2)
    (f := fun a => tensPsiElem p forward steps dt (Tens.eye2 n, x0.map fun _ => (0 : K)) a.1 a.2.1 a.2.2)
    (g := fun a => P.tfPsiElem forward steps dt a.1 a.2.1 a.2.2)
    (fun a b h => by rw [h.1]; exact psiElem_rep hp forward steps dt (eye2_isM n) hx.zeroV b.1 h.2.1 h.2.2)
    (forall₂_zips (forall₂_eq_self (tfBlockTimes blocks steps dt t0)) (forall₂_zips hKi hdi))
  refine PyRep.bind (hm.with fun r r' e h => And.intro (mapM_ok_iff.1 e).length_eq h) fun r r' hr => ?_
  obtain ⟨hl, hr⟩ := hr
  have hl : r'.length = blocks := by rw [← hl]; simp [tfBlockTimes]
  have hne' : ∀ {γ : Type} (f : Matrix (Fin n) (Fin n) K × (Fin n → K) → γ), r'.map f ≠ [] := by
    intro γ f h0
    have := List.map_eq_nil_iff.1 h0
    subst this
    simp at hl
    omega
  refine .left (stackAll_bat isM_rel (forall₂_maps hr fun a b h => h.1) (hne' _)) fun As hA => ?_
  refine .left (stackAll_bat isV_rel (forall₂_maps hr fun a b h => h.2) (hne' _)) fun bs hb => ?_
  refine .left ⟨_, hx.sizeL, rfl⟩ fun _ h => ?_
  subst h
  refine .left (expand_bat isM_rel (eye2_isM n)) fun A1 hA1 => ?_
  refine .left (hA1.concat hA) fun A2 hA2 => ?_
  refine .left (expand_bat isV_rel hx) fun b1 hb1 => ?_
  refine .left (hb1.concat hb) fun b2 hb2 => ?_
  exact .ok ⟨Tens.IsB.hM (l := (1, x0') :: r') (f := Prod.fst) hA2, Tens.IsB.hV (l := (1, x0') :: r') (f := Prod.snd) hb2, by simp [hl]⟩

omit [LinearOrder K] in
theorem clqtForwardExtract_rep (hp : p.Holds P) (u_zoh : Bool) {blocks steps : ℕ} (hB : 0 < blocks) (dt t0 : K) {Kxs ds Psis phis : Tens K}
    {Kl : List (Matrix (Fin m) (Fin n) K)} {dl : List (Fin m → K)} {es : List (Matrix (Fin n) (Fin n) K × (Fin n → K))} (hK : Kxs.HoldsM Kl)
    (hd : ds.HoldsV dl) (h1 : Psis.HM es (·.1)) (h2 : phis.HV es (·.2)) (l1 : Kl.length = blocks * steps) (l2 : dl.length = blocks * steps)
    (l3 : es.length = blocks + 1) :
    PyRep (fun t r => t.1.HoldsV r.1 ∧ t.2.HoldsV r.2) (tensClqtParForwardExtract p Kxs ds Psis phis steps dt t0 u_zoh)
      (P.tfParForwardExtract Kl dl (es.map Prod.snd) steps dt t0 u_zoh) := by
  have hph : phis.Bat [n] (fun t A => t.IsV A) (es.map Prod.snd) := Tens.IsVt.bat h2
  have hps : Psis.size 0 = .ok (blocks + 1) := by have := (Tens.IsMt.bat h1).size0R; rw [List.length_map, l3] at this; exact this
  have lph : (es.map Prod.snd).length = blocks + 1 := by simp [l3]
  generalize es.map Prod.snd = phl at hph lph ⊢
  unfold tensClqtParForwardExtract CLQT.tfParForwardExtract tfReshape
  refine .left ⟨_, hps, rfl⟩ fun _ h => ?_
  subst h
  dsimp only
  rw [lph, Nat.add_sub_cancel, if_pos l1, if_pos l2]
  refine PyRep.right (PyRep.right ?_)
  refine .left (splitM_rep hK l1) fun Kt hKt => ?_
  refine .left (splitV_rep hd l2) fun dt' hdt => ?_
  refine .left hph.init fun pi hpi => ?_
  have hbl : (tfBlockTimes blocks steps dt t0).length = blocks := by simp [tfBlockTimes]
  refine PyRep.bind (clqtFwBatch_rep hp u_zoh steps dt (t0 := tfBlockTimes blocks steps dt t0) hpi hKt hdt (by rw [hbl]; simp [lph]) (by rw [hbl]; simp)
    (by rw [hbl]; simp) (by intro h0; rw [h0] at hbl; simp at hbl; omega)) fun r rs hr => ?_
  obtain ⟨xs, us⟩ := r
  obtain ⟨hxs, hus⟩ := hr
  dsimp only at hxs hus ⊢
  refine .left hxs.init1 fun xs hxs => ?_
  refine .left (hxs.merge isV_rel) fun xs hxs => ?_
  refine .left (hus.merge isV_rel) fun us hus => ?_
  refine PyRep.bind (hph.ends true) fun xT xT' hxT => ?_
  refine .left (expand_bat isV_rel hxT) fun x1 hx1 => ?_
  refine .left (hxs.concat hx1) fun xs hxs => ?_
  rw [List.map_map] at hxs
  exact .ok ⟨hxs.holdsV, hus.holdsV⟩

omit [LinearOrder K] in
theorem clqtParForward_rep (hp : p.Holds P) {scan : AScan} (hs : ∀ α, IsAssocScan (scan α)) (forward u_zoh : Bool) {blocks steps : ℕ} (hB : 0 < blocks)
    (dt t0 : K) {x0 Kxs ds : Tens K} {x0' : Fin n → K} {Kl : List (Matrix (Fin m) (Fin n) K)} {dl : List (Fin m → K)} (hx : x0.IsV x0')
    (hK : Kxs.HoldsM Kl) (hd : ds.HoldsV dl) (l1 : Kl.length = blocks * steps) (l2 : dl.length = blocks * steps) :
    ∃ scan' : (Matrix (Fin n) (Fin n) K × (Fin n → K) → Matrix (Fin n) (Fin n) K × (Fin n → K) → Py (Matrix (Fin n) (Fin n) K × (Fin n → K))) →
        List (Matrix (Fin n) (Fin n) K × (Fin n → K)) → Py (List (Matrix (Fin n) (Fin n) K × (Fin n → K))), IsAssocScan scan' ∧
      PyRep (fun t r => t.1.HoldsV r.1 ∧ t.2.HoldsV r.2) (tensClqtParForward p scan blocks steps x0 Kxs ds dt t0 forward u_zoh)
        (P.tfParForward scan' blocks steps x0' Kl dl dt t0 forward u_zoh) := by
  have hi := clqtForwardInit_rep hp forward hB dt t0 hx hK hd l1 l2
  cases h0 : P.tfParForwardInit forward blocks steps x0' Kl dl dt t0 with
  | error e =>
    rw [h0] at hi
    obtain ⟨e', he⟩ := hi
    refine ⟨scan _, hs _, ?_⟩
    unfold CLQT.tfParForward tensClqtParForward
    rw [h0, he]
    exact ⟨e', rfl⟩
  | ok es =>
    rw [h0] at hi
    obtain ⟨t, et, hA, hb, hl⟩ := hi
    obtain ⟨scan', k0, r, rs, e1, e2, hr1, hr2, hl'⟩ := scanPair_rep hs hA hb (by rintro rfl; simp at hl)
    refine ⟨scan', k0, ?_⟩
    unfold CLQT.tfParForward tensClqtParForward
    rw [h0, et]
    show PyRep _ (tensScanPair scan tensLqtCombF t >>= _) (scan' (fun a b => .ok (tfCombF a b)) es >>= _)
    rw [e1, e2]
    exact clqtForwardExtract_rep hp u_zoh hB dt t0 hK hd hr1 hr2 l1 l2 (hl'.trans hl)

/-! ### Parallel forward-backward pass -/

theorem clqtFwdBwdInit_rep (hp : p.Holds P) (hn : 0 < n) (forward : Bool) {blocks : ℕ} (hB : 0 < blocks) (steps : ℕ) (dt t0 : K) {x0 : Tens K}
    {x0' : Fin n → K} (hx : x0.IsV x0') :
    PyRep (fun t es => t.Holds es ∧ es.length = blocks + 1) (tensClqtParFwdBwdInit p forward blocks steps x0 dt t0)
      (P.tfParFwdBwdInit forward blocks steps x0' dt t0) := by
  unfold tensClqtParFwdBwdInit CLQT.tfParFwdBwdInit
  refine .left ⟨_, hx.sizeL, rfl⟩ fun _ h => ?_
  subst h
  refine .left ⟨_, hx.sizeL, rfl⟩ fun _ h => ?_
  subst h
  refine PyRep.bind (clqtParInit_rep hp hn forward hB steps dt t0 (eye2_isM n) (constV_zero n)) fun r es hr => ?_
  obtain ⟨As, bs, Cs, etas, Js⟩ := r
  obtain ⟨⟨hA, hb, hC, heta, hJ⟩, hl⟩ := hr
  dsimp only at hA hb hC heta hJ ⊢
  refine .left ⟨_, hx.size0, rfl⟩ fun _ h => ?_
  subst h
  refine .left ⟨_, hx.size0, rfl⟩ fun _ h => ?_
  subst h
  have hz := constM_zero (K := K) n n
  refine .left (hz.col1 hn) fun e0 he0 => ?_
  refine .left (Tens.IsMt.bat hA).init fun A1 hA1 => ?_
  refine .left (Tens.IsVt.bat hb).init fun b1 hb1 => ?_
  refine .left (Tens.IsMt.bat hC).init fun C1 hC1 => ?_
  refine .left (Tens.IsVt.bat heta).init fun eta1 heta1 => ?_
  refine .left (Tens.IsMt.bat hJ).init fun J1 hJ1 => ?_
  rw [← List.map_dropLast] at hA1 hb1 hC1 heta1 hJ1
  have hh : (⟨A1, b1, C1, eta1, J1⟩ : TensElem K).Holds es.dropLast := ⟨hA1.hM, hb1.hV, hC1.hM, heta1.hV, hJ1.hM⟩
  obtain ⟨t, et, ht⟩ := cons_rep (e := ⟨0, x0', 0, 0, 0⟩) (t' := ⟨Tens.const [n, n] (0 : K), x0, (Tens.const [n, n] (0 : K)).map fun _ => (0 : K),
    e0.map fun _ => (0 : K), (Tens.const [n, n] (0 : K)).map fun _ => (0 : K)⟩) hh hz hx hz.zeroM he0.zeroV hz.zeroM
  exact ⟨t, et, ht, by simp [hl]⟩

theorem clqtFwdBwdExtract_rep (hp : p.Holds P) {blocks steps : ℕ} (hB : 0 < blocks) (dt t0 : K) {te : TensElem K} {el : List (Elem n K)} {tb : TensBw K}
    {bw : BwResult n m K} (he : te.Holds el) (hb : tb.Holds bw) (l0 : el.length = blocks + 1) (l1 : bw.Kx_list.length = blocks * steps)
    (l2 : bw.d_list.length = blocks * steps) (l3 : bw.S_list.length = blocks * steps + 1) (l4 : bw.v_list.length = blocks * steps + 1) :
    PyRep (fun t r => t.1.HoldsV r.1 ∧ t.2.HoldsV r.2) (tensClqtParFwdBwdExtract p te.A te.b te.C tb.Ss tb.vs tb.Kxs tb.ds steps dt t0)
      (P.tfParFwdBwdExtract el bw steps dt t0) := by
  unfold tensClqtParFwdBwdExtract CLQT.tfParFwdBwdExtract
  have hps : te.A.size 0 = .ok (blocks + 1) := by have := (Tens.IsMt.bat he.A).size0R; rw [List.length_map, l0] at this; exact this
  refine .left ⟨_, hps, rfl⟩ fun _ h => ?_
  subst h
  dsimp only
  rw [l0, Nat.add_sub_cancel]
  refine .left (Tens.IsMt.bat he.A).init fun A1 hA1 => ?_
  refine .left (Tens.IsVt.bat he.b).init fun b1 hb1 => ?_
  refine .left (Tens.IsMt.bat he.C).init fun C1 hC1 => ?_
  rw [← List.map_dropLast] at hA1 hb1 hC1
  have hbl : (tfBlockTimes blocks steps dt t0).length = blocks := by simp [tfBlockTimes]
  refine PyRep.bind (abcBatch_rep hp steps dt (t0 := tfBlockTimes blocks steps dt t0) (te := ⟨A1, b1, C1⟩) hA1 hb1 hC1 (by rw [hbl]; simp [l0])
    (by intro h0; rw [h0] at hbl; simp at hbl; omega)) fun r rs hr => ?_
  obtain ⟨tA, tb', tC⟩ := r
  obtain ⟨⟨hA, hb', hC⟩, hl⟩ := hr
  rw [hbl] at hl
  dsimp only at hA hb' hC ⊢
  have hne : rs ≠ [] := by rintro rfl; simp at hl; omega
  have nA : (rs.getLast hne).A_list ≠ [] := by
    have := hA.len _ (List.mem_map_of_mem (List.getLast_mem hne))
    intro h0; rw [h0] at this; simp at this
  have nb : (rs.getLast hne).b_list ≠ [] := by
    have := hb'.len _ (List.mem_map_of_mem (List.getLast_mem hne))
    intro h0; rw [h0] at this; simp at this
  have nC : (rs.getLast hne).C_list ≠ [] := by
    have := hC.len _ (List.mem_map_of_mem (List.getLast_mem hne))
    intro h0; rw [h0] at this; simp at this
  rw [pyLast_ne hne]
  show PyRep _ _ ((pyLast (rs.getLast hne).A_list) >>= _)
  rw [pyLast_ne nA]
  show PyRep _ _ ((pyLast (rs.getLast hne).b_list) >>= _)
  rw [pyLast_ne nb]
  show PyRep _ _ ((pyLast (rs.getLast hne).C_list) >>= _)
  rw [pyLast_ne nC]
  have e1 : ∃ r, tb'.last = .ok r ∧ r.BatN (steps + 1) [n] (fun t A => t.IsV A) (rs.getLast hne).b_list := by
    obtain ⟨r, e, hr⟩ := hb'.lastR (by simpa using hne)
    rw [List.getLast_map] at hr
    exact ⟨r, e, hr⟩
  have e2 : ∃ r, tC.last = .ok r ∧ r.BatN (steps + 1) [n, n] (fun t (A : Matrix (Fin n) (Fin n) K) => t.IsM A) (rs.getLast hne).C_list := by
    obtain ⟨r, e, hr⟩ := hC.lastR (by simpa using hne)
    rw [List.getLast_map] at hr
    exact ⟨r, e, hr⟩
  refine .left e1 fun bl hbl' => ?_
  refine .left (hbl'.2.lastR nb) fun bT hbT => ?_
  refine .left e2 fun Cl hCl => ?_
  refine .left (hCl.2.lastR nC) fun CT hCT => ?_
  refine .left hb'.init1 fun b2 hb2 => ?_
  refine .left hC.init1 fun C2 hC2 => ?_
  have lb := flattenN_len hb2.len
  have lC := flattenN_len hC2.len
  simp only [List.length_map, hl] at lb lC
  refine .left (hb2.merge isV_rel) fun b3 hb3 => ?_
  refine .left (hC2.merge isM_rel) fun C3 hC3 => ?_
  refine .left (expand_bat isV_rel hbT) fun b4 hb4 => ?_
  refine .left (hb3.concat hb4) fun b5 hb5 => ?_
  refine .left (expand_bat isM_rel hCT) fun C4 hC4 => ?_
  refine .left (hC3.concat hC4) fun C5 hC5 => ?_
  rw [List.map_map] at hb5 hC5 lb lC
  exact clqtCombine_rep (N := blocks * steps) hb.Ss hb.vs hb.Kxs hb.ds hb5.holdsV hC5.holdsM l3 l4 l1 l2
    ((List.length_append).trans (congrArg (· + 1) lb)) ((List.length_append).trans (congrArg (· + 1) lC))

theorem clqtParFwdBwd_rep (hp : p.Holds P) (hn : 0 < n) {scan : AScan} (hs : ∀ α, IsAssocScan (scan α)) (forward : Bool) {blocks steps : ℕ}
    (hB : 0 < blocks) (dt t0 : K) {x0 : Tens K} {x0' : Fin n → K} {tb : TensBw K} {bw : BwResult n m K} (hx : x0.IsV x0') (hb : tb.Holds bw)
    (l1 : bw.Kx_list.length = blocks * steps) (l2 : bw.d_list.length = blocks * steps) (l3 : bw.S_list.length = blocks * steps + 1)
    (l4 : bw.v_list.length = blocks * steps + 1) :
    ∃ scan' : (Elem n K → Elem n K → Py (Elem n K)) → List (Elem n K) → Py (List (Elem n K)), (IsAssocScan scan' ∧
      ∀ D, HasDepth D (scan (TensElem K)) → HasDepth D (scan (Elem n K)) → HasDepth D scan') ∧
      PyRep (fun t r => t.1.HoldsV r.1 ∧ t.2.HoldsV r.2) (tensClqtParFwdBwd p scan blocks steps x0 tb.Ss tb.vs tb.Kxs tb.ds dt t0 forward)
        (P.tfParFwdBwd scan' blocks steps x0' bw dt t0 forward) := by
  have hi := clqtFwdBwdInit_rep hp hn forward hB steps dt t0 hx
  cases h0 : P.tfParFwdBwdInit forward blocks steps x0' dt t0 with
  | error e =>
    rw [h0] at hi
    obtain ⟨e', he⟩ := hi
    refine ⟨scan _, ⟨hs _, fun _ _ h => h⟩, ?_⟩
    unfold CLQT.tfParFwdBwd tensClqtParFwdBwd
    rw [h0, he]
    exact ⟨e', rfl⟩
  | ok es =>
    rw [h0] at hi
    obtain ⟨t, et, ht, hl⟩ := hi
    obtain ⟨scan', k0, hk⟩ := scanAssoc_rep hs (fn := tensLqtCombV) (op := tfCombV) (fun a a' b b' ha ha' => combV_rep ha ha') ht
      (by rintro rfl; simp at hl)
    refine ⟨scan', k0, ?_⟩
    unfold CLQT.tfParFwdBwd tensClqtParFwdBwd
    rw [h0, et]
    show PyRep _ (t.scanAssoc scan tensLqtCombV >>= _) (scan' tfCombV es >>= _)
    rcases hk with ⟨ts, el, e5, s5, hts, hl'⟩ | ⟨e, e5, s5⟩
    · rw [e5, s5]
      exact clqtFwdBwdExtract_rep hp hB dt t0 hts hb (hl'.trans hl) l1 l2 l3 l4
    · rw [e5, s5]
      exact ⟨e, rfl⟩

end Ordered

end Verif
