import Verif.Proof.CLQTTF
import Verif.Proof.CLQTEx

/-! The parallel passes of the continuous-time tracker in TensorFlow: comparison with numpy. -/

namespace Verif

open Matrix

section Scan
variable {α β : Type}

theorem tfScanFwdM_last' (body : β → α → Py β) : ∀ (l : List α) (b : β),
    (tfScanFwdM body b l >>= fun r => pyLast (b :: r)) = l.foldlM body b
  | [], b => rfl
  | a :: l, b => by
    rw [tfScanFwdM, List.foldlM_cons]
    cases h : body b a with
    | error e => rfl
    | ok c =>
      have ih := tfScanFwdM_last' body l c
      show (tfScanFwdM body c l >>= fun r => pure (c :: r)) >>= (fun r => pyLast (b :: r)) = List.foldlM body c l
      rw [← ih, bind_assoc]
      congr 1

theorem tfScanFwdM_last (body : β → α → Py β) {l : List α} (hl : l ≠ []) (b : β) :
    (tfScanFwdM body b l >>= pyLast) = l.foldlM body b := by
  obtain ⟨a, l, rfl⟩ := List.exists_cons_of_ne_nil hl
  rw [tfScanFwdM, List.foldlM_cons, bind_assoc]
  congr 1
  funext c
  rw [← tfScanFwdM_last' body l c, bind_assoc]
  rfl

theorem tfScanRev_snd (body : β → α → Py β) (b : β) : ∀ l : List α,
    (tfScanRev body b l >>= fun r => pure r.2) = l.reverse.foldlM body b
  | [] => rfl
  | a :: l => by
    rw [tfScanRev, List.reverse_cons, List.foldlM_append, ← tfScanRev_snd body b l, bind_assoc, bind_assoc]
    congr 1
    funext r
    simp only [pure_bind, List.foldlM_cons, List.foldlM_nil, bind_pure, bind_assoc]

theorem tfScanRev_first (body : β → α → Py β) (b : β) {l : List α} (hl : l ≠ []) :
    (tfScanRev body b l >>= fun r => pyGet r.1 0) = l.reverse.foldlM body b := by
  obtain ⟨a, l, rfl⟩ := List.exists_cons_of_ne_nil hl
  rw [← tfScanRev_snd, tfScanRev, bind_assoc, bind_assoc]
  congr 1
  funext r
  rw [bind_assoc, bind_assoc]
  congr 1

theorem PyRel.of_iff {d : Bool} {R : α → β → Prop} {a : Py α} {b : Py β} (g : α → β) (g' : β → α) (h1 : ∀ x, a = .ok x → b = .ok (g x))
    (h2 : ∀ y, b = .ok y → a = .ok (g' y)) (h3 : ∀ x, R x (g x)) (h4 : ∀ y, R (g' y) y) : PyRel d R a b := by
  cases d
  · exact fun y hy => ⟨_, h2 y hy, h4 y⟩
  · exact fun x hx => ⟨_, h1 x hx, h3 x⟩

theorem zip_seq (f : ℕ → α) (g : ℕ → β) (N : ℕ) :
    ((List.range N).map f).zip ((List.range N).map g) = (List.range N).map fun k => (f k, g k) := by
  rw [List.zip_map', ]

theorem tfReshape_seq (f : ℕ → β) (B s : ℕ) :
    tfReshape B s ((List.range (B * s)).map f) = .ok ((List.range B).map fun q => (List.range s).map fun i => f (q * s + i)) := by
  unfold tfReshape
  rw [if_pos (by simp)]
  congr 1
  refine seq_congr fun q hq => ?_
  rw [pySlice_seq f (Nat.mul_le_mul_right s (Nat.le_succ q)) (Nat.mul_le_mul_right s hq)]
  have : (q + 1) * s - q * s = s := by rw [Nat.succ_mul]; omega
  rw [this]

theorem tail_seq (f : ℕ → β) (N : ℕ) : ((List.range (N + 1)).map f).tail = (List.range N).map fun k => f (k + 1) := by
  rw [List.range_succ_eq_map]
  simp [Function.comp_def]

theorem dropLast_seq (f : ℕ → β) (N : ℕ) : ((List.range (N + 1)).map f).dropLast = (List.range N).map f := by
  rw [List.range_succ]
  simp

end Scan

variable {n m : ℕ} {K : Type} [Field K] [LinearOrder K]

section Rel
variable {P : CLQT n m K} {d : Bool}

/-! ### Parallel backward pass -/

theorem elem_rel {f : Matrix (Fin n) (Fin (3 * n + 2)) K → K → Py (Matrix (Fin n) (Fin (3 * n + 2)) K)}
    {g : Matrix (Fin n) (Fin (3 * n + 2)) K → K → Unit → Py (Matrix (Fin n) (Fin (3 * n + 2)) K)}
    (h : ∀ x t, PyRel d Eq (f x t) (g x t ())) (dt t : K) (e : Elem n K) :
    PyRel d Eq (CLQT.elemStep f dt t e) (tfElemBody g dt e t) := by
  unfold CLQT.elemStep tfElemBody
  dsimp only
  rw [packABCEJTF_eq]
  exact (rk4_rel h _ _ _).bindEq fun x => PyRel.ok rfl

theorem tfTimes_ne {steps : ℕ} (h : 0 < steps) (dt t0 : K) : tfTimes steps dt t0 ≠ [] := by
  unfold tfTimes
  simp
  omega

theorem CLQT.SolvRel.blockElem (h : P.SolvRel d) (forward : Bool) {steps : ℕ} (hs : 0 < steps) (dt t0 : K) (q : ℕ) :
    PyRel d Eq (P.blockElem forward steps dt t0 q) (P.tfBlockElem forward steps dt (t0 + q * steps * dt)) := by
  unfold CLQT.blockElem CLQT.tfBlockElem
  cases forward
  · simp only [Bool.false_eq_true, if_false]
    rw [tfScanRev_first _ _ (tfTimes_ne hs _ _)]
    refine PyRel.foldlM (T := fun (k : ℕ) (t : K) => t = t0 + q * steps * dt + k * dt) ?_ ?_ rfl
    · rintro e _ k t rfl rfl
      have : t0 + q * steps * dt + k * dt + dt = t0 + (q * steps + k + 1) * dt := by ring
      rw [this]
      exact elem_rel (fun x t => h.elemBw x t) _ _ _
    · rw [List.forall₂_reverse_iff]
      exact forall₂_map_range _ _
  · simp only [if_true]
    rw [tfScanFwdM_last _ (tfTimes_ne hs _ _)]
    refine PyRel.foldlM (T := fun (k : ℕ) (t : K) => t = t0 + q * steps * dt + k * dt) ?_ (forall₂_map_range _ _) rfl
    rintro e _ k t rfl rfl
    have : t0 + q * steps * dt + k * dt = t0 + (q * steps + k) * dt := by ring
    rw [this]
    exact elem_rel (fun x t => h.elemFw x t) _ _ _

theorem CLQT.SolvRel.blockElems (h : P.SolvRel d) (forward : Bool) (blocks : ℕ) {steps : ℕ} (hs : 0 < steps) (dt t0 : K) :
    PyRel d Eq ((List.range blocks).mapM (P.blockElem forward steps dt t0))
      ((tfBlockTimes blocks steps dt t0).mapM (P.tfBlockElem forward steps dt)) := by
  refine (PyRel.mapM (R := Eq) (T := fun (q : ℕ) (t : K) => t = t0 + q * steps * dt) ?_ (forall₂_map_range _ _)).mono ?_
  · rintro q t rfl
    exact h.blockElem forward hs dt t0 q
  · intro x y hxy
    exact List.forall₂_eq_eq_eq ▸ hxy

theorem CLQT.tfTerm (P : CLQT n m K) : P.HTᵀ * (P.XT * P.HT) = P.HTᵀ * P.XT * P.HT ∧
    P.HTᵀ *ᵥ (P.XT *ᵥ P.rT) = (P.HTᵀ * P.XT) *ᵥ P.rT := ⟨(Matrix.mul_assoc _ _ _).symm, by rw [mulVec_mulVec]⟩

theorem CLQT.SolvRel.parBackwardInit (h : P.SolvRel d) (forward : Bool) (blocks : ℕ) {steps : ℕ} (hs : 0 < steps) (dt t0 : K) :
    PyRel d Eq (P.parBackwardInit blocks steps (some dt) (some t0) forward)
      (P.tfParBackwardInit forward blocks steps dt t0 (P.HTᵀ * (P.XT * P.HT)) (P.HTᵀ *ᵥ (P.XT *ᵥ P.rT))) := by
  unfold CLQT.parBackwardInit CLQT.tfParBackwardInit
  rw [P.tfTerm.1, P.tfTerm.2]
  simp only [Option.getD_some, P.dtPar_some]
  show PyRel d _ (_ >>= _) (_ >>= _)
  exact (h.blockElems forward blocks hs dt t0).bindEq fun es => PyRel.refl _

theorem CLQT.SolvRel.parBackwardExtract (h : P.SolvRel d) (w : ℕ → Elem n K) (B steps : ℕ) (dt t0 : K) :
    PyRel d Eq (P.parBackwardExtract ((List.range (B + 1)).map w) steps (some dt) (some t0))
      (P.tfParBackwardExtract (((List.range (B + 1)).map w).map Elem.eta) (((List.range (B + 1)).map w).map Elem.J) steps dt t0) := by
  unfold CLQT.parBackwardExtract CLQT.tfParBackwardExtract
  simp only [List.length_map, List.length_range, Nat.add_sub_cancel, Option.getD_some, P.dtPar_some, List.map_map, tail_seq]
  have hb : ∀ {α β : Type} (a : α) (f : α → Py β), ((Except.ok a : Py α) >>= f) = f a := fun _ _ => rfl
  rw [hb, pyGet_seq w (by omega), hb, zip_seq]
  unfold tfBlockTimes
  rw [zip_seq]
  refine PyRel.bind (R := List.Forall₂ fun (x : List (Matrix (Fin m) (Fin n) K × (Fin m → K) × Matrix (Fin n) (Fin n) K × (Fin n → K)))
    (r : BwResult n m K) => r.Kx_list = x.map (fun q => q.1) ∧ r.d_list = x.map (fun q => q.2.1) ∧
      r.S_list.tail = x.map (fun q => q.2.2.1) ∧ r.v_list.tail = x.map (fun q => q.2.2.2)) ?_ ?_
  · refine PyRel.mapM (T := fun (q : ℕ) a => q < B ∧
      a = (t0 + (q : K) * steps * dt, (Elem.J ∘ w) (q + 1), (Elem.eta ∘ w) (q + 1))) ?_ ?_
    · rintro q a ⟨hq, rfl⟩
      rw [pyGet_seq w (by omega), hb]
      have et : t0 + (q : K) * steps * dt = t0 + q * dt * steps := by ring
      rw [et]
      have hrel := ((h.seqBackward steps dt (t0 + q * dt * steps) (w (q + 1)).J (w (q + 1)).eta).and_left
        (Q := fun b => ∃ σ κ, b = bwLists steps σ κ) (by
          intro b hb'
          obtain ⟨dt', -, σ, κ, -, -, rfl⟩ := CLQT.seqBackward_ok.1 hb'
          exact ⟨σ, κ, rfl⟩)).bind (R' := fun (x : List (Matrix (Fin m) (Fin n) K × (Fin m → K) × Matrix (Fin n) (Fin n) K × (Fin n → K)))
    (r : BwResult n m K) => r.Kx_list = x.map (fun q => q.1) ∧ r.d_list = x.map (fun q => q.2.1) ∧
      r.S_list.tail = x.map (fun q => q.2.2.1) ∧ r.v_list.tail = x.map (fun q => q.2.2.2))
        (f := fun b => (List.range b.Kx_list.length).mapM (fun (i : ℕ) => do
          let S ← pyGet b.S_list (i + 1)
          let v ← pyGet b.v_list (i + 1)
          let Kx ← pyGet b.Kx_list i
          let d ← pyGet b.d_list i
          return (Kx, d, S, v))) (g := pure) (by
        rintro b _ ⟨rfl, σ, κ, rfl⟩
        have : (List.range (bwLists steps σ κ).Kx_list.length).mapM (fun (i : ℕ) => do
            let S ← pyGet (bwLists steps σ κ).S_list (i + 1)
            let v ← pyGet (bwLists steps σ κ).v_list (i + 1)
            let Kx ← pyGet (bwLists steps σ κ).Kx_list i
            let d ← pyGet (bwLists steps σ κ).d_list i
            return (Kx, d, S, v)) =
            .ok ((List.range steps).map fun i => ((κ i).1, (κ i).2, (σ (i + 1)).1, (σ (i + 1)).2)) := by
          simp only [bwLists, List.length_map, List.length_range]
          refine mapM_range_of fun i hi => ?_
          rw [pyGet_seq _ (by omega), pyGet_seq _ (by omega), pyGet_seq _ (by omega), pyGet_seq _ (by omega)]
          rfl
        rw [this]
        refine PyRel.ok ?_
        simp only [bwLists, tail_seq, List.map_map, Function.comp_def, and_self])
      rw [bind_pure] at hrel
      exact hrel
    · exact forall₂_map_range' _ fun q hq => ⟨hq, rfl⟩
  · intro xs rs hxr
    rw [pyGet_seq _ (by omega), pyGet_seq _ (by omega), hb, hb]
    refine PyRel.ok ?_
    have key : xs.flatten.map (fun q => q.1) = (rs.map fun r => r.Kx_list).flatten ∧
        xs.flatten.map (fun q => q.2.1) = (rs.map fun r => r.d_list).flatten ∧
        xs.flatten.map (fun q => q.2.2.1) = (rs.map fun r => r.S_list.tail).flatten ∧
        xs.flatten.map (fun q => q.2.2.2) = (rs.map fun r => r.v_list.tail).flatten := by
      induction hxr with
      | nil => exact ⟨rfl, rfl, rfl, rfl⟩
      | cons h1 _ ih =>
        simp only [List.flatten_cons, List.map_append, List.map_cons, h1.1, h1.2.1, h1.2.2.1, h1.2.2.2, ih, and_self]
    simp only [key, Function.comp]

/-- The scanned elements of both implementations. -/
theorem suffix_unique {scan : (Elem n K → Elem n K → Py (Elem n K)) → List (Elem n K) → Py (List (Elem n K))}
    (hs : IsAssocScan scan) {es el r : List (Elem n K)} (hsym : ∀ e ∈ es, e.Sym) (h1 : scanVals combineABCEJ es true = .ok el)
    (h2 : scan tfCombVRev es.reverse = .ok r) : r.reverse = el := by
  obtain ⟨l1, p1⟩ := scanVals_suffix h1
  obtain ⟨l2, p2⟩ := tfScan_suffix hs (op := combineABCEJ) h2
  refine list_ext_of l2 l1 fun k hk => ?_
  obtain ⟨v, hv, hp⟩ := p1 k hk
  obtain ⟨v', hv', hp'⟩ := p2 k hk
  rw [hv, hv', paren_unique hp hp' fun e he => hsym e (List.mem_of_mem_drop he)]

theorem prefix_unique {scan : (Elem n K → Elem n K → Py (Elem n K)) → List (Elem n K) → Py (List (Elem n K))}
    (hs : IsAssocScan scan) {es el r : List (Elem n K)} (hsym : ∀ e ∈ es, e.Sym) (h1 : scanVals combineABCEJ es = .ok el)
    (h2 : scan tfCombV es = .ok r) : r = el := by
  obtain ⟨l1, p1⟩ := scanVals_prefix h1
  obtain ⟨l2, p2⟩ := hs.pref h2
  refine list_ext_of l2 l1 fun k hk => ?_
  obtain ⟨v, hv, hp⟩ := p1 k hk
  obtain ⟨v', hv', hp'⟩ := p2 k hk
  rw [hv, hv', paren_unique hp hp' fun e he => hsym e (List.mem_of_mem_take he)]

theorem CLQT.parBackwardInit_sym {blocks steps : ℕ} {odt t0 : Option K} {forward : Bool} {es : List (Elem n K)} (hXT : P.XTᵀ = P.XT)
    (h : P.parBackwardInit blocks steps odt t0 forward = .ok es) : es.length = blocks + 1 ∧ ∀ e ∈ es, e.Sym := by
  unfold CLQT.parBackwardInit at h
  simp only [bind_ok] at h
  obtain ⟨dt, -, l, hl, he⟩ := h
  obtain rfl := Except.ok.inj he
  haveI : Inhabited (Elem n K) := ⟨⟨0, 0, 0, 0, 0⟩⟩
  obtain ⟨E, rfl, hE⟩ := mapM_seq.1 hl
  refine ⟨by simp, fun e he => ?_⟩
  rcases List.mem_append.1 he with he | he
  · obtain ⟨q, hq, rfl⟩ := List.mem_map.1 he
    exact CLQT.blockElem_sym (hE q (List.mem_range.1 hq))
  · rw [List.mem_singleton.1 he]
    exact ⟨transpose_zero, by simp only [transpose_mul, transpose_transpose, hXT, Matrix.mul_assoc]⟩

/-- The parallel backward passes agree. -/
theorem CLQT.tfParBackward_eq (h : P.SolvRel true) (hXT : P.XTᵀ = P.XT)
    {scan : (Elem n K → Elem n K → Py (Elem n K)) → List (Elem n K) → Py (List (Elem n K))} (hsc : IsAssocScan scan)
    {blocks steps : ℕ} (hs : 0 < steps) {dt t0 : K} {forward : Bool} {r r' : BwResult n m K}
    (h1 : P.parBackwardPass blocks steps (some dt) (some t0) forward = .ok r)
    (h2 : P.tfParBackward scan blocks steps dt t0 (P.HTᵀ * (P.XT * P.HT)) (P.HTᵀ *ᵥ (P.XT *ᵥ P.rT)) forward = .ok r') : r' = r := by
  unfold CLQT.parBackwardPass at h1
  unfold CLQT.tfParBackward at h2
  simp only [bind_ok, P.dtPar_some, Option.getD_some, Except.ok.injEq] at h1 h2
  obtain ⟨_, rfl, es, hes, el, hel, hr⟩ := h1
  obtain ⟨es', hes', rl, hrl, hr'⟩ := h2
  obtain ⟨_, he, rfl⟩ := h.parBackwardInit forward blocks hs dt t0 es hes
  obtain rfl : es = es' := Except.ok.inj (he.symm.trans hes')
  obtain ⟨hlen, hsym⟩ := CLQT.parBackwardInit_sym hXT hes
  rw [suffix_unique hsc hsym hel hrl] at hr'
  have hl : el.length = blocks + 1 := (scanVals_suffix hel).1.trans hlen
  haveI : Inhabited (Elem n K) := ⟨⟨0, 0, 0, 0, 0⟩⟩
  obtain ⟨w, hw⟩ := exists_seq el
  rw [hl] at hw
  subst hw
  obtain ⟨_, h3, rfl⟩ := h.parBackwardExtract w blocks steps dt t0 r hr
  exact Except.ok.inj (hr'.symm.trans h3)

/-! ### Parallel forward pass -/

omit [LinearOrder K] in
theorem rk4TF_eq {X Q : Type} [AddCommGroup X] [Module K X] (f : X → K → Q → Py X) : rk4TF (K := K) f = rk4TP f := by
  funext dt x t p
  have e : (1 / 2) * dt = dt / 2 := by ring
  unfold rk4TF rk4TP
  rw [e]

theorem CLQT.tfPsiFw_eq (P : CLQT n m K) : P.tfPsiFwF = P.fwpassFwOdeF := by
  funext x t g
  unfold CLQT.tfPsiFwF CLQT.fwpassFwOdeF
  simp only [packPsiphiTF_eq]
  rfl

theorem CLQT.tfPsiBw_eq (P : CLQT n m K) : P.tfPsiBwF = P.fwpassBwOdeF := by
  funext x t g
  unfold CLQT.tfPsiBwF CLQT.fwpassBwOdeF
  simp only [packPsiphiTF_eq, neg_mul, neg_mulVec]
  rfl

theorem psiStep_eq {f : Matrix (Fin n) (Fin (n + 1)) K → K → (Matrix (Fin m) (Fin n) K × (Fin m → K)) →
      Py (Matrix (Fin n) (Fin (n + 1)) K)} {Kxs : List (Matrix (Fin m) (Fin n) K)} {ds : List (Fin m → K)} {dt t : K} {j : ℕ}
    {e : Matrix (Fin n) (Fin n) K × (Fin n → K)} {g : Matrix (Fin m) (Fin n) K × (Fin m → K)} (h1 : pyGet Kxs j = .ok g.1)
    (h2 : pyGet ds j = .ok g.2) : CLQT.psiStep f Kxs ds dt t j e = tfPsiBody f dt e t g := by
  unfold CLQT.psiStep tfPsiBody
  rw [h1, h2, rk4TF_eq, packPsiphiTF_eq]
  rfl

theorem CLQT.tfPsiElem_rel (P : CLQT n m K) (d forward : Bool) {B steps : ℕ} (hs : 0 < steps)
    (κ : ℕ → Matrix (Fin m) (Fin n) K × (Fin m → K)) (dt t0 : K) {q : ℕ} (hq : q < B) :
    PyRel d Eq (P.psiElem forward (gainLists (B * steps) κ).1 (gainLists (B * steps) κ).2 steps dt t0 q)
      (P.tfPsiElem forward steps dt (t0 + q * steps * dt) ((List.range steps).map fun i => (κ (q * steps + i)).1)
        ((List.range steps).map fun i => (κ (q * steps + i)).2)) := by
  have hlt : ∀ i < steps, q * steps + i < B * steps := by
    intro i hi
    calc q * steps + i < q * steps + steps := by omega
      _ = (q + 1) * steps := by ring
      _ ≤ B * steps := Nat.mul_le_mul_right _ hq
  have g1 : ∀ i < steps, pyGet (gainLists (B * steps) κ).1 (q * steps + i) = .ok (κ (q * steps + i)).1 :=
    fun i hi => pyGet_seq _ (hlt i hi)
  have g2 : ∀ i < steps, pyGet (gainLists (B * steps) κ).2 (q * steps + i) = .ok (κ (q * steps + i)).2 :=
    fun i hi => pyGet_seq _ (hlt i hi)
  have hne : (List.range steps).map (fun i : ℕ => (t0 + q * steps * dt + i * dt, (κ (q * steps + i)).1, (κ (q * steps + i)).2)) ≠ [] := by
    simp
    omega
  unfold CLQT.psiElem CLQT.tfPsiElem tfTimes
  rw [zip_seq, zip_seq]
  cases forward
  · simp only [Bool.false_eq_true, if_false]
    rw [tfScanRev_first _ _ hne]
    refine PyRel.foldlM (T := fun (i : ℕ) a => i < steps ∧
      a = (t0 + q * steps * dt + i * dt, (κ (q * steps + i)).1, (κ (q * steps + i)).2)) ?_ ?_ rfl
    · rintro e _ i a rfl ⟨hi, rfl⟩
      refine PyRel.of_eq ?_
      rw [psiStep_eq (g := κ (q * steps + i)) (g1 i hi) (g2 i hi), P.tfPsiBw_eq]
      congr 1
      ring
    · rw [List.forall₂_reverse_iff]
      exact forall₂_map_range' _ fun i hi => ⟨hi, rfl⟩
  · simp only [if_true]
    rw [tfScanFwdM_last _ hne]
    refine PyRel.foldlM (T := fun (i : ℕ) a => i < steps ∧
      a = (t0 + q * steps * dt + i * dt, (κ (q * steps + i)).1, (κ (q * steps + i)).2)) ?_ (forall₂_map_range' _ fun i hi => ⟨hi, rfl⟩) rfl
    rintro e _ i a rfl ⟨hi, rfl⟩
    refine PyRel.of_eq ?_
    rw [psiStep_eq (g := κ (q * steps + i)) (g1 i hi) (g2 i hi), P.tfPsiFw_eq]
    congr 1
    ring

theorem CLQT.tfParForwardInit_rel (P : CLQT n m K) (d forward : Bool) (B : ℕ) {steps : ℕ} (hs : 0 < steps)
    (κ : ℕ → Matrix (Fin m) (Fin n) K × (Fin m → K)) (x0 : Fin n → K) (dt t0 : K) :
    PyRel d Eq (P.parForwardInit x0 (gainLists (B * steps) κ).1 (gainLists (B * steps) κ).2 B steps (some dt) (some t0) forward)
      (P.tfParForwardInit forward B steps x0 (gainLists (B * steps) κ).1 (gainLists (B * steps) κ).2 dt t0) := by
  have hb : ∀ {α β : Type} (a : α) (f : α → Py β), ((Except.ok a : Py α) >>= f) = f a := fun _ _ => rfl
  have hl : (gainLists (B * steps) κ).1.length = B * steps := by simp [gainLists]
  unfold CLQT.parForwardInit CLQT.tfParForwardInit
  simp only [Option.getD_some, P.dtPar_some, hl, ne_eq, not_true_eq_false, if_false]
  rw [hb]
  unfold gainLists
  dsimp only
  rw [tfReshape_seq, tfReshape_seq, hb, hb]
  unfold tfBlockTimes
  rw [zip_seq, zip_seq]
  refine PyRel.bind (R := Eq) ?_ (by rintro x _ rfl; exact PyRel.refl _)
  refine (PyRel.mapM (R := Eq) (T := fun (q : ℕ) a => q < B ∧ a = (t0 + (q : K) * steps * dt, (List.range steps).map (fun i => (κ (q * steps + i)).1),
        (List.range steps).map fun i => (κ (q * steps + i)).2)) ?_ (forall₂_map_range' _ fun i hi => ⟨hi, rfl⟩)).mono ?_
  · rintro q a ⟨hq, rfl⟩
    exact P.tfPsiElem_rel d forward hs κ dt t0 hq
  · intro x y hxy
    exact List.forall₂_eq_eq_eq ▸ hxy

theorem CLQT.tfParForwardExtract_rel (P : CLQT n m K) (d u_zoh : Bool) (B : ℕ) {steps : ℕ} (hs : 0 < steps)
    (κ : ℕ → Matrix (Fin m) (Fin n) K × (Fin m → K)) (w : ℕ → Matrix (Fin n) (Fin n) K × (Fin n → K)) (dt t0 : K) :
    PyRel d (fun a b => a.swap = b)
      (P.parForwardExtract (gainLists (B * steps) κ).1 (gainLists (B * steps) κ).2 ((List.range (B + 1)).map w) steps (some dt)
        (some t0) u_zoh)
      (P.tfParForwardExtract (gainLists (B * steps) κ).1 (gainLists (B * steps) κ).2 (((List.range (B + 1)).map w).map Prod.snd)
        steps dt t0 u_zoh) := by
  have hb : ∀ {α β : Type} (a : α) (f : α → Py β), ((Except.ok a : Py α) >>= f) = f a := fun _ _ => rfl
  have hl : (gainLists (B * steps) κ).1.length = B * steps := by simp [gainLists]
  unfold CLQT.parForwardExtract CLQT.tfParForwardExtract
  simp only [Option.getD_some, P.dtPar_some, hl, List.length_map, List.length_range, Nat.add_sub_cancel, ne_eq, not_true_eq_false,
    if_false, List.map_map]
  unfold gainLists
  dsimp only
  rw [hb, tfReshape_seq, tfReshape_seq, hb, hb, dropLast_seq]
  unfold tfBlockTimes
  rw [zip_seq, zip_seq, zip_seq, pyLast_seq, pyLast_seq]
  refine PyRel.bind (R := List.Forall₂ fun (x : List ((Fin m → K) × (Fin n → K))) (r : List (Fin n → K) × List (Fin m → K)) =>
    r.1.dropLast = x.map Prod.snd ∧ r.2 = x.map Prod.fst) ?_ ?_
  · refine PyRel.mapM (T := fun (q : ℕ) a => q < B ∧ a = (t0 + (q : K) * steps * dt, (Prod.snd ∘ w) q,
        (List.range steps).map (fun i => (κ (q * steps + i)).1), (List.range steps).map fun i => (κ (q * steps + i)).2)) ?_
        (forall₂_map_range' _ fun i hi => ⟨hi, rfl⟩)
    rintro q a ⟨hq, rfl⟩
    have hsl : (q + 1) * steps - q * steps = steps := by rw [Nat.succ_mul]; omega
    rw [pyGet_seq w (by omega), hb, pySlice_seq _ (Nat.mul_le_mul_right steps (Nat.le_succ q)) (Nat.mul_le_mul_right steps hq),
      pySlice_seq _ (Nat.mul_le_mul_right steps (Nat.le_succ q)) (Nat.mul_le_mul_right steps hq), hsl]
    have hrel := ((P.tfSeqForward_rel d u_zoh (w q).2 (Kxs := (List.range steps).map fun i => (κ (q * steps + i)).1)
      (ds := (List.range steps).map fun i => (κ (q * steps + i)).2) dt (t0 + (q : K) * steps * dt) (by simp) (by simp; omega)).and_left
      (Q := fun b => ∃ υ ξ, b = ((List.range steps).map υ, (List.range (steps + 1)).map ξ)) (by
        intro b hb'
        obtain ⟨dt', -, ξ, -, -, rfl⟩ := (CLQT.seqForward_ok (κ := fun i => κ (q * steps + i))).1 hb'
        exact ⟨_, _, rfl⟩)).bind (R' := fun (x : List ((Fin m → K) × (Fin n → K))) (r : List (Fin n → K) × List (Fin m → K)) =>
          r.1.dropLast = x.map Prod.snd ∧ r.2 = x.map Prod.fst)
      (f := fun b => (List.range b.1.length).mapM (fun (i : ℕ) => do
          let u ← pyGet b.1 i
          let x ← pyGet b.2 i
          return (u, x))) (g := pure) (by
        rintro b _ ⟨rfl, υ, ξ, rfl⟩
        have : (List.range ((List.range steps).map υ).length).mapM (fun (i : ℕ) => do
          let u ← pyGet ((List.range steps).map υ) i
          let x ← pyGet ((List.range (steps + 1)).map ξ) i
          return (u, x)) = .ok ((List.range steps).map fun i => (υ i, ξ i)) := by
          simp only [List.length_map, List.length_range]
          refine mapM_range_of fun i hi => ?_
          rw [pyGet_seq _ (by omega), pyGet_seq _ (by omega)]
          rfl
        rw [this]
        refine PyRel.ok ?_
        simp [dropLast_seq, Function.comp_def, Prod.swap])
    rw [bind_pure] at hrel
    exact hrel
  · intro xs rs hxr
    rw [hb, hb]
    refine PyRel.ok ?_
    have key : xs.flatten.map Prod.snd = (rs.map fun r => r.1.dropLast).flatten ∧
        xs.flatten.map Prod.fst = (rs.map fun r => r.2).flatten := by
      induction hxr with
      | nil => exact ⟨rfl, rfl⟩
      | cons h1 _ ih =>
        simp only [List.flatten_cons, List.map_append, List.map_cons, h1.1, h1.2, ih, and_self]
    simp only [key, Prod.swap, Function.comp]

theorem aff_inj {a b : Matrix (Fin n) (Fin n) K × (Fin n → K)} (h : ∀ x, aff a x = aff b x) : a = b := by
  have h0 : a.2 = b.2 := by simpa [aff] using h 0
  refine Prod.ext (mat_ext_mulVec fun x => ?_) h0
  have := h x
  simp only [aff, h0] at this
  simpa using this

theorem CLQT.tfParForward_rel (P : CLQT n m K) (d : Bool)
    {scan : (Matrix (Fin n) (Fin n) K × (Fin n → K) → Matrix (Fin n) (Fin n) K × (Fin n → K) →
      Py (Matrix (Fin n) (Fin n) K × (Fin n → K))) → List (Matrix (Fin n) (Fin n) K × (Fin n → K)) →
      Py (List (Matrix (Fin n) (Fin n) K × (Fin n → K)))} (hsc : IsAssocScan scan) (B : ℕ) {steps : ℕ} (hs : 0 < steps)
    (κ : ℕ → Matrix (Fin m) (Fin n) K × (Fin m → K)) (x0 : Fin n → K) (dt t0 : K) (forward u_zoh : Bool) :
    PyRel d (fun a b => a.swap = b)
      (P.parForwardPass x0 (gainLists (B * steps) κ).1 (gainLists (B * steps) κ).2 B steps (some dt) (some t0) forward u_zoh)
      (P.tfParForward scan B steps x0 (gainLists (B * steps) κ).1 (gainLists (B * steps) κ).2 dt t0 forward u_zoh) := by
  have hb : ∀ {α β : Type} (a : α) (f : α → Py β), ((Except.ok a : Py α) >>= f) = f a := fun _ _ => rfl
  unfold CLQT.parForwardPass CLQT.tfParForward
  simp only [Option.getD_some, P.dtPar_some]
  rw [hb]
  refine ((P.tfParForwardInit_rel d forward B hs κ x0 dt t0).and_left (Q := fun es => es.length = B + 1) ?_).bind ?_
  · intro es hes
    unfold CLQT.parForwardInit at hes
    simp only [bind_ok, P.dtPar_some] at hes
    obtain ⟨dt', -, hes⟩ := hes
    split at hes
    · cases hes
    · obtain ⟨l, hl, he⟩ := bind_ok.1 hes
      obtain rfl := Except.ok.inj he
      have := (mapM_range_ok.1 hl).1
      simp [this]
  · rintro es _ ⟨rfl, hlen⟩
    have hne : es ≠ [] := by rintro rfl; simp at hlen
    obtain ⟨el, hel⟩ := scanVals_total (P := fun _ => True) (op := fun x y => .ok (combineFC x y))
      (fun x y _ _ => ⟨_, rfl, trivial⟩) hne (fun _ _ => trivial) false
    obtain ⟨el', hel'⟩ := hsc.total (op := fun a b => .ok (tfCombF a b)) (l := es) (fun _ => True)
      (fun _ _ _ _ => ⟨_, rfl, trivial⟩) hne (fun _ _ => trivial)
    have heq : el' = el := by
      obtain ⟨l1, p1⟩ := scanVals_prefix hel
      obtain ⟨l2, p2⟩ := hsc.pref hel'
      refine list_ext_of l2 l1 fun k hk => ?_
      obtain ⟨v, hv, hp⟩ := p1 k hk
      obtain ⟨v', hv', hp'⟩ := p2 k hk
      rw [hv, hv']
      congr 1
      exact aff_inj fun x => (paren_aff hp' x).trans (paren_aff hp x).symm
    rw [hel, hel', hb, hb, heq]
    have hl : el.length = B + 1 := (scanVals_prefix hel).1.trans hlen
    haveI : Inhabited (Matrix (Fin n) (Fin n) K × (Fin n → K)) := ⟨0⟩
    obtain ⟨w, hw⟩ := exists_seq el
    rw [hl] at hw
    subst hw
    exact P.tfParForwardExtract_rel d u_zoh B hs κ w dt t0

/-! ### Combination of passes -/

theorem combine_np_iff (N : ℕ) (σ : ℕ → CVal n K) (κ : ℕ → Matrix (Fin m) (Fin n) K × (Fin m → K)) (α : ℕ → CAbc n K)
    {us : List (Fin m → K)} {xs : List (Fin n → K)} :
    CLQT.combineForwardBackward (bwLists N σ κ) (abcLists (N + 1) α) = .ok (us, xs) ↔
    ∃ ξ : ℕ → Fin n → K, (∀ k < N + 1, solveV (1 + (α k).2.2 * (σ k).1) ((α k).2.1 + (α k).2.2 *ᵥ (σ k).2) = .ok (ξ k)) ∧
      us = ((List.range N).map fun k => -((κ k).1 *ᵥ ξ k) + (κ k).2) ∧ xs = (List.range (N + 1)).map ξ := by
  unfold CLQT.combineForwardBackward
  simp only [bwLists, abcLists, List.length_map, List.length_range]
  haveI : Inhabited (Option (Fin m → K) × (Fin n → K)) := ⟨(none, 0)⟩
  have hF : ∀ k < N + 1, ∀ y, ((do
    let S ← pyGet ((List.range (N + 1)).map fun k => (σ k).1) k
    let v ← pyGet ((List.range (N + 1)).map fun k => (σ k).2) k
    let _ ← pyGet ((List.range (N + 1)).map fun k => (α k).1) k
    let b ← pyGet ((List.range (N + 1)).map fun k => (α k).2.1) k
    let C ← pyGet ((List.range (N + 1)).map fun k => (α k).2.2) k
    let x ← solveV (1 + C * S) (b + C *ᵥ v)
    let u ← (if k < N then do
        let Kx ← pyGet ((List.range N).map fun k => (κ k).1) k
        let d ← pyGet ((List.range N).map fun k => (κ k).2) k
        pure (some (-Kx *ᵥ x + d))
      else pure none)
    return (u, x) : Py (Option (Fin m → K) × (Fin n → K))) = .ok y ↔
      solveV (1 + (α k).2.2 * (σ k).1) ((α k).2.1 + (α k).2.2 *ᵥ (σ k).2) = .ok y.2 ∧
      y.1 = if k < N then some (-((κ k).1 *ᵥ y.2) + (κ k).2) else none) := by
    intro k hk y
    rw [pyGet_seq _ hk, pyGet_seq _ hk, pyGet_seq _ hk, pyGet_seq _ hk, pyGet_seq _ hk]
    simp only [bind_ok, Except.ok.injEq, exists_eq_left']
    by_cases hN : k < N
    · simp only [if_pos hN, pyGet_seq _ hN, bind_ok, Except.ok.injEq, exists_eq_left', pure, Except.pure]
      constructor
      · rintro ⟨x, h1, rfl⟩
        exact ⟨h1, by simp [neg_mulVec]⟩
      · rintro ⟨h1, h2⟩
        exact ⟨_, h1, Prod.ext (by simp [h2, neg_mulVec]) rfl⟩
    · simp only [if_neg hN, Except.ok.injEq, exists_eq_left', pure, Except.pure]
      constructor
      · rintro ⟨x, h1, rfl⟩
        exact ⟨h1, rfl⟩
      · rintro ⟨h1, h2⟩
        exact ⟨_, h1, Prod.ext (by simp [h2]) rfl⟩
  rw [bind_ok]
  have hred : ∀ f : ℕ → Option (Fin m → K) × (Fin n → K), (∀ k < N + 1, (f k).1 = if k < N then some (-((κ k).1 *ᵥ (f k).2) + (κ k).2) else none) →
      (((List.range (N + 1)).map f).map Prod.fst).reduceOption = (List.range N).map fun k => -((κ k).1 *ᵥ (f k).2) + (κ k).2 := by
    intro f hf
    rw [List.range_succ, List.map_append, List.map_append, List.reduceOption_append, List.map_map]
    have e1 : (List.range N).map (Prod.fst ∘ f) = ((List.range N).map fun k => -((κ k).1 *ᵥ (f k).2) + (κ k).2).map some := by
      rw [List.map_map]
      refine seq_congr fun k hk => ?_
      show (f k).1 = _
      rw [hf k (by omega), if_pos hk]
      rfl
    have e2 : (f N).1 = none := by rw [hf N (by omega), if_neg (by omega)]
    rw [e1]
    simp [List.reduceOption, e2]
  constructor
  · rintro ⟨rs, hrs, he⟩
    obtain ⟨f, rfl, hf⟩ := mapM_seq.1 hrs
    have hf' := fun k hk => (hF k hk (f k)).1 (hf k hk)
    obtain ⟨rfl, rfl⟩ := Prod.mk.inj (Except.ok.inj he)
    refine ⟨fun k => (f k).2, fun k hk => (hf' k hk).1, hred f fun k hk => (hf' k hk).2, by rw [List.map_map]; rfl⟩
  · rintro ⟨ξ, h1, rfl, rfl⟩
    refine ⟨_, mapM_seq.2 ⟨fun k => (if k < N then some (-((κ k).1 *ᵥ ξ k) + (κ k).2) else none, ξ k), rfl,
      fun k hk => (hF k hk _).2 ⟨h1 k hk, rfl⟩⟩, ?_⟩
    rw [hred _ fun k _ => rfl, List.map_map]
    rfl

theorem combine_tf_iff (N : ℕ) (σ : ℕ → CVal n K) (κ : ℕ → Matrix (Fin m) (Fin n) K × (Fin m → K)) (α : ℕ → CAbc n K)
    {us : List (Fin m → K)} {xs : List (Fin n → K)} : clqtTfCombine (bwLists N σ κ) (abcLists (N + 1) α) = .ok (xs, us) ↔
    ∃ ξ : ℕ → Fin n → K, (∀ k < N + 1, solveV (1 + (α k).2.2 * (σ k).1) ((α k).2.1 + (α k).2.2 *ᵥ (σ k).2) = .ok (ξ k)) ∧
      us = ((List.range N).map fun k => -((κ k).1 *ᵥ ξ k) + (κ k).2) ∧ xs = (List.range (N + 1)).map ξ := by
  unfold clqtTfCombine
  simp only [bwLists, abcLists, List.length_map, List.length_range, ne_eq, not_true_eq_false, Nat.add_sub_cancel, or_self, if_false]
  rw [zip_seq, zip_seq, zip_seq, zip_seq]
  rw [bind_ok, List.mapM_map]
  simp only [Function.comp_def]
  haveI : Inhabited (Fin n → K) := ⟨0⟩
  have hz : ∀ ξ : ℕ → Fin n → K, List.zipWith (fun (Kd : Matrix (Fin m) (Fin n) K × (Fin m → K)) x => -(Kd.1 *ᵥ x) + Kd.2)
      ((List.range N).map fun k => ((κ k).1, (κ k).2)) ((List.range (N + 1)).map ξ).dropLast =
      (List.range N).map fun k => -((κ k).1 *ᵥ ξ k) + (κ k).2 := by
    intro ξ
    rw [dropLast_seq, List.zipWith_map_left, List.zipWith_map_right]
    simp
  constructor
  · rintro ⟨rs, hrs, he⟩
    obtain ⟨ξ, rfl, hf⟩ := mapM_seq.1 hrs
    obtain ⟨rfl, rfl⟩ := Prod.mk.inj (Except.ok.inj he)
    exact ⟨ξ, hf, hz ξ, rfl⟩
  · rintro ⟨ξ, h1, rfl, rfl⟩
    exact ⟨_, mapM_seq.2 ⟨ξ, rfl, h1⟩, by rw [hz]; rfl⟩

theorem clqtTfCombine_rel (d : Bool) (N : ℕ) (σ : ℕ → CVal n K) (κ : ℕ → Matrix (Fin m) (Fin n) K × (Fin m → K)) (α : ℕ → CAbc n K) :
    PyRel d (fun a b => a.swap = b) (CLQT.combineForwardBackward (bwLists N σ κ) (abcLists (N + 1) α))
      (clqtTfCombine (bwLists N σ κ) (abcLists (N + 1) α)) :=
  PyRel.of_iff Prod.swap Prod.swap (fun x hx => (combine_tf_iff N σ κ α).2 ((combine_np_iff N σ κ α).1 hx))
    (fun x hx => (combine_np_iff N σ κ α).2 ((combine_tf_iff N σ κ α).1 hx)) (fun _ => rfl) (fun _ => Prod.swap_swap _)

/-! ### Parallel forward-backward pass -/

theorem blocks_seq {β : Type} (f : ℕ → ℕ → β) (B : ℕ) {s : ℕ} (hs : 0 < s) (y : β) :
    ((List.range B).map fun q => (List.range s).map (f q)).flatten ++ [y] =
      (List.range (B * s + 1)).map fun k => if k < B * s then f (k / s) (k % s) else y := by
  rw [List.range_succ, List.map_append]
  congr 1
  · rw [← seq_blocks]
    congr 1
    refine seq_congr fun q hq => seq_congr fun i hi => ?_
    have e1 : (q * s + i) / s = q := by
      rw [mul_comm, Nat.mul_add_div hs, Nat.div_eq_of_lt hi, add_zero]
    have e2 : (q * s + i) % s = i := by
      rw [mul_comm, Nat.mul_add_mod, Nat.mod_eq_of_lt hi]
    have hlt : q * s + i < B * s := by
      calc q * s + i < q * s + s := by omega
        _ = (q + 1) * s := by ring
        _ ≤ B * s := Nat.mul_le_mul_right _ hq
    rw [if_pos hlt, e1, e2]
  · simp

theorem slice_bw (B steps : ℕ) (σ : ℕ → CVal n K) (κ : ℕ → Matrix (Fin m) (Fin n) K × (Fin m → K)) {q : ℕ} (hq : q < B) :
    (⟨pySlice (bwLists (B * steps) σ κ).Kx_list (q * steps) ((q + 1) * steps),
      pySlice (bwLists (B * steps) σ κ).d_list (q * steps) ((q + 1) * steps),
      pySlice (bwLists (B * steps) σ κ).S_list (q * steps) ((q + 1) * steps + 1),
      pySlice (bwLists (B * steps) σ κ).v_list (q * steps) ((q + 1) * steps + 1)⟩ : BwResult n m K) =
      bwLists steps (fun i => σ (q * steps + i)) (fun i => κ (q * steps + i)) := by
  have h1 : q * steps ≤ (q + 1) * steps := Nat.mul_le_mul_right steps (Nat.le_succ q)
  have h2 : (q + 1) * steps ≤ B * steps := Nat.mul_le_mul_right steps hq
  have h3 : (q + 1) * steps - q * steps = steps := by rw [Nat.succ_mul]; omega
  have h4 : (q + 1) * steps + 1 - q * steps = steps + 1 := by omega
  unfold bwLists
  simp only
  rw [pySlice_seq _ h1 h2, pySlice_seq _ h1 h2, pySlice_seq _ (by omega) (by omega), pySlice_seq _ (by omega) (by omega), h3, h4]

theorem CLQT.tfParFwdBwdExtract_eq (h : P.SolvRel true) (B : ℕ) {steps : ℕ} (hs : 0 < steps) (σ : ℕ → CVal n K)
    (κ : ℕ → Matrix (Fin m) (Fin n) K × (Fin m → K)) (w : ℕ → Elem n K) (dt t0 : K) {r : List (Fin m → K) × List (Fin n → K)}
    (hr : P.parFwdBwdExtract (bwLists (B * steps) σ κ) ((List.range (B + 1)).map w) steps (some dt) (some t0) = .ok r) :
    P.tfParFwdBwdExtract ((List.range (B + 1)).map w) (bwLists (B * steps) σ κ) steps dt t0 = .ok r.swap := by
  have hb : ∀ {α β : Type} (a : α) (f : α → Py β), ((Except.ok a : Py α) >>= f) = f a := fun _ _ => rfl
  unfold CLQT.parFwdBwdExtract at hr
  have hl1 : (bwLists (B * steps) σ κ).Kx_list.length = B * steps := by simp [bwLists]
  have hl2 : (bwLists (B * steps) σ κ).S_list.length = B * steps + 1 := by simp [bwLists]
  simp only [List.length_map, List.length_range, Nat.add_sub_cancel, hl1, hl2, ne_eq, not_true_eq_false, if_false, Option.getD_some,
    P.dtPar_some] at hr
  rw [hb, bind_ok] at hr
  obtain ⟨rs, hrs, hr⟩ := hr
  haveI : Inhabited (List ((Fin m → K) × (Fin n → K)) × List (Fin n → K)) := ⟨([], [])⟩
  obtain ⟨f, rfl, hf⟩ := mapM_seq.1 hrs
  have key : ∀ q, ∃ (α : ℕ → CAbc n K) (ξ : ℕ → Fin n → K), q < B →
      P.tfSeqFwdBwd steps dt (t0 + q * steps * dt) (w q).A (w q).b (w q).C = .ok (abcLists (steps + 1) α) ∧
      (∀ k < steps + 1, solveV (1 + (α k).2.2 * (σ (q * steps + k)).1) ((α k).2.1 + (α k).2.2 *ᵥ (σ (q * steps + k)).2) = .ok (ξ k)) ∧
      f q = ((List.range steps).map fun i => (-((κ (q * steps + i)).1 *ᵥ ξ i) + (κ (q * steps + i)).2, ξ i),
        (List.range (steps + 1)).map ξ) := by
    intro q
    by_cases hq : q < B
    swap
    · exact ⟨fun _ => 0, fun _ => 0, fun h => absurd h hq⟩
    have := hf q hq
    rw [pyGet_seq w (by omega), hb, slice_bw B steps σ κ hq, bind_ok] at this
    obtain ⟨fw, hfw, this⟩ := this
    obtain ⟨b, hb', this⟩ := bind_ok.1 this
    obtain ⟨l, hl, he⟩ := bind_ok.1 this
    obtain ⟨_, htf, rfl⟩ := h.seqFwdBwd steps dt (t0 + q * steps * dt) 0 (w q).A (w q).b (w q).C fw hfw
    obtain ⟨dt', -, α, -, -, rfl⟩ := CLQT.seqFwdBwd_ok.1 hfw
    obtain ⟨us, xs⟩ := b
    obtain ⟨ξ, h1, rfl, rfl⟩ := (combine_np_iff steps _ _ α).1 hb'
    refine ⟨α, ξ, fun _ => ⟨htf, h1, ?_⟩⟩
    rw [← Except.ok.inj he]
    simp only [List.length_map, List.length_range] at hl
    rw [mapM_range_of (g := fun i => (-((κ (q * steps + i)).1 *ᵥ ξ i) + (κ (q * steps + i)).2, ξ i)) (fun i hi => by
      rw [pyGet_seq _ hi, pyGet_seq _ (by omega)]; rfl)] at hl
    rw [← Except.ok.inj hl]
  choose α ξ hk using key
  have hfl : (List.range B).map f = (List.range B).map fun q =>
      ((List.range steps).map fun i => (-((κ (q * steps + i)).1 *ᵥ ξ q i) + (κ (q * steps + i)).2, ξ q i),
        (List.range (steps + 1)).map (ξ q)) := seq_congr fun q hq => (hk q hq).2.2
  rw [hfl] at hr
  rcases Nat.eq_zero_or_pos B with rfl | hB
  · simp at hr
  obtain ⟨B, rfl⟩ := Nat.exists_eq_succ_of_ne_zero (by omega : B ≠ 0)
  simp only [Nat.succ_eq_add_one] at *
  have hlast : ((List.range (B + 1)).map fun q =>
      ((List.range steps).map fun i => (-((κ (q * steps + i)).1 *ᵥ ξ q i) + (κ (q * steps + i)).2, ξ q i),
        (List.range (steps + 1)).map (ξ q))).getLast? =
      some ((List.range steps).map fun i => (-((κ (B * steps + i)).1 *ᵥ ξ B i) + (κ (B * steps + i)).2, ξ B i),
        (List.range (steps + 1)).map (ξ B)) := pyLast_ok.1 (pyLast_seq _ B)
  rw [hlast] at hr
  simp only [pyLast_seq] at hr
  rw [hb] at hr
  obtain rfl := Except.ok.inj hr
  unfold CLQT.tfParFwdBwdExtract
  simp only [List.length_map, List.length_range, Nat.add_sub_cancel]
  rw [dropLast_seq]
  unfold tfBlockTimes
  rw [zip_seq, List.mapM_map]
  simp only [Function.comp_def]
  rw [mapM_range_of (g := fun q => abcLists (steps + 1) (α q)) (fun q hq => (hk q hq).1), hb, pyLast_seq, hb]
  have hA : pyLast (abcLists (steps + 1) (α B)).A_list = .ok (α B steps).1 := pyLast_seq _ _
  have hbb : pyLast (abcLists (steps + 1) (α B)).b_list = .ok (α B steps).2.1 := pyLast_seq _ _
  have hC : pyLast (abcLists (steps + 1) (α B)).C_list = .ok (α B steps).2.2 := pyLast_seq _ _
  rw [hA, hbb, hC, hb, hb, hb]
  simp only [List.map_map, Function.comp_def, abcLists, dropLast_seq]
  rw [blocks_seq (fun q i => (α q i).1) (B + 1) hs, blocks_seq (fun q i => (α q i).2.1) (B + 1) hs, blocks_seq (fun q i => (α q i).2.2) (B + 1) hs]
  have hmk : ∀ k, (if k < (B + 1) * steps then (α (k / steps) (k % steps)) else α B steps).1 =
      if k < (B + 1) * steps then (α (k / steps) (k % steps)).1 else (α B steps).1 := fun k => by split_ifs <;> rfl
  have hmk2 : ∀ k, (if k < (B + 1) * steps then (α (k / steps) (k % steps)) else α B steps).2.1 =
      if k < (B + 1) * steps then (α (k / steps) (k % steps)).2.1 else (α B steps).2.1 := fun k => by split_ifs <;> rfl
  have hmk3 : ∀ k, (if k < (B + 1) * steps then (α (k / steps) (k % steps)) else α B steps).2.2 =
      if k < (B + 1) * steps then (α (k / steps) (k % steps)).2.2 else (α B steps).2.2 := fun k => by split_ifs <;> rfl
  simp only [← hmk, ← hmk2, ← hmk3]
  refine (combine_tf_iff ((B + 1) * steps) σ κ (fun k => if k < (B + 1) * steps then α (k / steps) (k % steps) else α B steps)).2
    ⟨fun k => if k < (B + 1) * steps then ξ (k / steps) (k % steps) else ξ B steps, ?_, ?_, ?_⟩
  · intro k hkk
    dsimp only
    by_cases hlt : k < (B + 1) * steps
    · simp only [if_pos hlt]
      have hq : k / steps < B + 1 := (Nat.div_lt_iff_lt_mul hs).2 hlt
      have := (hk _ hq).2.1 (k % steps) (by have := Nat.mod_lt k hs; omega)
      rw [Nat.div_add_mod'] at this
      exact this
    · simp only [if_neg hlt]
      have e : k = B * steps + steps := by
        have : (B + 1) * steps = B * steps + steps := by ring
        omega
      rw [e]
      exact (hk B (by omega)).2.1 steps (by omega)
  · have := seq_blocks (fun k => -((κ k).1 *ᵥ (if k < (B + 1) * steps then ξ (k / steps) (k % steps) else ξ B steps)) + (κ k).2) steps (B + 1)
    rw [← this]
    simp only [Prod.swap, List.map_flatten, List.map_map, Function.comp_def]
    congr 1
    refine seq_congr fun q hq => seq_congr fun i hi => ?_
    have e1 : (q * steps + i) / steps = q := by
      rw [mul_comm, Nat.mul_add_div hs, Nat.div_eq_of_lt hi, add_zero]
    have e2 : (q * steps + i) % steps = i := by
      rw [mul_comm, Nat.mul_add_mod, Nat.mod_eq_of_lt hi]
    have hlt : q * steps + i < (B + 1) * steps := by
      calc q * steps + i < q * steps + steps := by omega
        _ = (q + 1) * steps := by ring
        _ ≤ (B + 1) * steps := Nat.mul_le_mul_right _ hq
    rw [if_pos hlt, e1, e2]
  · rw [← blocks_seq (fun q i => ξ q i) (B + 1) hs]
    simp only [Prod.swap, List.map_flatten, List.map_map, Function.comp_def]

theorem CLQT.SolvRel.parFwdBwdInit (h : P.SolvRel d) (forward : Bool) (blocks : ℕ) {steps : ℕ} (hs : 0 < steps) (x0 : Fin n → K) (dt t0 : K) :
    PyRel d Eq (P.parFwdBwdInit x0 blocks steps (some dt) (some t0) forward) (P.tfParFwdBwdInit forward blocks steps x0 dt t0) := by
  have hb : ∀ {α β : Type} (a : α) (f : α → Py β), ((Except.ok a : Py α) >>= f) = f a := fun _ _ => rfl
  unfold CLQT.parFwdBwdInit CLQT.tfParFwdBwdInit CLQT.tfParBackwardInit
  simp only [Option.getD_some, P.dtPar_some]
  rw [hb, bind_assoc]
  refine (h.blockElems forward blocks hs dt t0).bindEq fun es => PyRel.ok ?_
  simp

theorem exists_bwLists {bw : BwResult n m K} {N : ℕ} (h1 : bw.Kx_list.length = N) (h2 : bw.d_list.length = N)
    (h3 : bw.S_list.length = N + 1) (h4 : bw.v_list.length = N + 1) : ∃ σ κ, bw = bwLists N σ κ := by
  haveI : Inhabited (Fin n → K) := ⟨0⟩
  haveI : Inhabited (Fin m → K) := ⟨0⟩
  haveI : Inhabited (Matrix (Fin m) (Fin n) K) := ⟨0⟩
  haveI : Inhabited (Matrix (Fin n) (Fin n) K) := ⟨0⟩
  obtain ⟨a, ha⟩ := exists_seq bw.Kx_list
  obtain ⟨b, hb⟩ := exists_seq bw.d_list
  obtain ⟨c, hc⟩ := exists_seq bw.S_list
  obtain ⟨e, he⟩ := exists_seq bw.v_list
  rw [h1] at ha
  rw [h2] at hb
  rw [h3] at hc
  rw [h4] at he
  refine ⟨fun k => (c k, e k), fun k => (a k, b k), ?_⟩
  cases bw
  simp only at ha hb hc he
  simp only [bwLists, ha, hb, hc, he]

/-- The parallel forward-backward passes agree. -/
theorem CLQT.tfParFwdBwd_eq (h : P.SolvRel true)
    {scan : (Elem n K → Elem n K → Py (Elem n K)) → List (Elem n K) → Py (List (Elem n K))} (hsc : IsAssocScan scan)
    {blocks steps : ℕ} (hs : 0 < steps) {dt t0 : K} {forward : Bool} {x0 : Fin n → K} {bw : BwResult n m K}
    (h1 : bw.Kx_list.length = blocks * steps) (h2 : bw.d_list.length = blocks * steps)
    (h3 : bw.S_list.length = blocks * steps + 1) (h4 : bw.v_list.length = blocks * steps + 1)
    {r : List (Fin m → K) × List (Fin n → K)} {r' : List (Fin n → K) × List (Fin m → K)}
    (hnp : P.parFwdBwdPass x0 bw blocks steps (some dt) (some t0) forward = .ok r)
    (htf : P.tfParFwdBwd scan blocks steps x0 bw dt t0 forward = .ok r') : r' = r.swap := by
  obtain ⟨σ, κ, rfl⟩ := exists_bwLists h1 h2 h3 h4
  unfold CLQT.parFwdBwdPass at hnp
  unfold CLQT.tfParFwdBwd at htf
  simp only [bind_ok, P.dtPar_some, Option.getD_some, Except.ok.injEq] at hnp htf
  obtain ⟨_, rfl, es, hes, el, hel, hr⟩ := hnp
  obtain ⟨es', hes', rl, hrl, hr'⟩ := htf
  obtain ⟨_, he, rfl⟩ := h.parFwdBwdInit forward blocks hs x0 dt t0 es hes
  obtain rfl : es = es' := Except.ok.inj (he.symm.trans hes')
  have hlen : es.length = blocks + 1 ∧ ∀ e ∈ es, e.Sym := by
    unfold CLQT.parFwdBwdInit at hes
    simp only [bind_ok] at hes
    obtain ⟨dt, -, l, hl, he⟩ := hes
    obtain rfl := Except.ok.inj he
    haveI : Inhabited (Elem n K) := ⟨⟨0, 0, 0, 0, 0⟩⟩
    obtain ⟨E, rfl, hE⟩ := mapM_seq.1 hl
    refine ⟨by simp, fun e he => ?_⟩
    rcases List.mem_cons.1 he with rfl | he
    · exact ⟨transpose_zero, transpose_zero⟩
    · obtain ⟨q, hq, rfl⟩ := List.mem_map.1 he
      exact CLQT.blockElem_sym (hE q (List.mem_range.1 hq))
  rw [prefix_unique hsc hlen.2 hel hrl] at hr'
  have hl : el.length = blocks + 1 := (scanVals_prefix hel).1.trans hlen.1
  haveI : Inhabited (Elem n K) := ⟨⟨0, 0, 0, 0, 0⟩⟩
  obtain ⟨w, hw⟩ := exists_seq el
  rw [hl] at hw
  subst hw
  exact Except.ok.inj (hr'.symm.trans (CLQT.tfParFwdBwdExtract_eq h blocks hs σ κ w dt t0 hr))

end Rel

/-! ### Solvability -/

section Ordered
variable [IsStrictOrderedRing K] {P : CLQT n m K}

/-- Cholesky success implies LU success with the same solution. -/
theorem CLQT.solvRel_sym (hU : ∀ t, (P.U t)ᵀ = P.U t) : P.SolvRel true := by
  intro t X hX
  obtain ⟨h1, h2⟩ := (solvePos_ok (hU t)).1 hX
  exact ⟨X, solve_ok.2 ⟨h1.det_ne_zero, h2⟩, rfl⟩

theorem CLQT.solvRel_pd (hU : ∀ t, (P.U t)ᵀ = P.U t ∧ IsPD (P.U t)) (d : Bool) : P.SolvRel d := by
  cases d
  · intro t X hX
    exact ⟨X, (solvePos_ok (hU t).1).2 ⟨(hU t).2, (solve_ok.1 hX).2⟩, rfl⟩
  · exact CLQT.solvRel_sym fun t => (hU t).1

omit [IsStrictOrderedRing K] in
theorem CLQT.Reg.blockElem (h : P.Reg) (forward : Bool) (steps : ℕ) (dt t0 : K) (q : ℕ) : ∃ e, P.blockElem forward steps dt t0 q = .ok e := by
  have hb : ∀ {α β : Type} (a : α) (f : α → Py β), ((Except.ok a : Py α) >>= f) = f a := fun _ _ => rfl
  have h1 : ∀ x t, ∃ y, P.bwpassFwOdeF x t = .ok y := by
    intro x t
    obtain ⟨X, hX⟩ := h t
    unfold CLQT.bwpassFwOdeF
    dsimp only
    rw [hX]
    exact ⟨_, rfl⟩
  have h2 : ∀ x t, ∃ y, P.bwpassBwOdeF x t = .ok y := by
    intro x t
    obtain ⟨X, hX⟩ := h t
    unfold CLQT.bwpassBwOdeF
    dsimp only
    rw [hX]
    exact ⟨_, rfl⟩
  have h3 : ∀ (f : Matrix (Fin n) (Fin (3 * n + 2)) K → K → Py (Matrix (Fin n) (Fin (3 * n + 2)) K)), (∀ x t, ∃ y, f x t = .ok y) →
      ∀ (dt t : K) (e : Elem n K), ∃ e', CLQT.elemStep f dt t e = .ok e' := by
    intro f hf dt t e
    obtain ⟨x, hx⟩ := rk4T_total hf dt (packABCEJ e) t
    unfold CLQT.elemStep
    dsimp only
    rw [hx]
    exact ⟨_, rfl⟩
  unfold CLQT.blockElem
  cases forward
  · simp only [Bool.false_eq_true, if_false]
    exact foldlM_all_ok (fun i _ e => h3 _ h2 _ _ _) _
  · simp only [if_true]
    exact foldlM_all_ok (fun i _ e => h3 _ h1 _ _ _) _

/-- With semidefinite elements both parallel backward passes complete. -/
theorem CLQT.tfParBackward_complete (hU : ∀ t, (P.U t)ᵀ = P.U t ∧ IsPD (P.U t)) (hXT : IsPSD P.XT)
    {scan : (Elem n K → Elem n K → Py (Elem n K)) → List (Elem n K) → Py (List (Elem n K))} (hsc : IsAssocScan scan)
    {blocks steps : ℕ} (hs : 0 < steps) {dt t0 : K} {forward : Bool}
    (hE : ∀ q < blocks, ∀ e, P.blockElem forward steps dt t0 q = .ok e → IsPSD e.C ∧ IsPSD e.J) :
    ∃ r, P.parBackwardPass blocks steps (some dt) (some t0) forward = .ok r ∧
      P.tfParBackward scan blocks steps dt t0 (P.HTᵀ * (P.XT * P.HT)) (P.HTᵀ *ᵥ (P.XT *ᵥ P.rT)) forward = .ok r := by
  have hb : ∀ {α β : Type} (a : α) (f : α → Py β), ((Except.ok a : Py α) >>= f) = f a := fun _ _ => rfl
  have hreg := CLQT.reg_of_pd hU
  choose E hE' using fun q => hreg.blockElem forward steps dt t0 q
  have hes : P.parBackwardInit blocks steps (some dt) (some t0) forward =
      .ok ((List.range blocks).map E ++ [⟨0, 0, 0, (P.HTᵀ * P.XT) *ᵥ P.rT, P.HTᵀ * P.XT * P.HT⟩]) := by
    unfold CLQT.parBackwardInit
    simp only [P.dtPar_some, Option.getD_some]
    rw [hb, mapM_range_of fun q _ => hE' q]
    rfl
  set es := (List.range blocks).map E ++ [(⟨0, 0, 0, (P.HTᵀ * P.XT) *ᵥ P.rT, P.HTᵀ * P.XT * P.HT⟩ : Elem n K)] with hesd
  have hpsd : ∀ e ∈ es, e.PSD := by
    intro e he
    rcases List.mem_append.1 he with he | he
    · obtain ⟨q, hq, rfl⟩ := List.mem_map.1 he
      exact hE q (List.mem_range.1 hq) _ (hE' q)
    · rw [List.mem_singleton.1 he]
      refine ⟨⟨transpose_zero, fun x => by simp⟩, psd_conj hXT⟩
  have hne : es ≠ [] := by simp [hesd]
  obtain ⟨el, hel⟩ := scanVals_total psd_closed hne hpsd true
  obtain ⟨rl, hrl⟩ := hsc.total (op := tfCombVRev) (l := es.reverse) Elem.PSD (fun x y hx hy => psd_closed _ _ hy hx)
    (by simpa using hne) (by simpa using hpsd)
  have hlen : es.length = blocks + 1 := by simp [hesd]
  have hsym : ∀ e ∈ es, e.Sym := fun e he => (hpsd e he).sym
  have heq := suffix_unique hsc hsym hel hrl
  have hl : el.length = blocks + 1 := (scanVals_suffix hel).1.trans hlen
  haveI : Inhabited (Elem n K) := ⟨⟨0, 0, 0, 0, 0⟩⟩
  obtain ⟨w, hw⟩ := exists_seq el
  rw [hl] at hw
  have hex : ∃ r, P.parBackwardExtract el steps (some dt) (some t0) = .ok r := by
    rw [hw]
    unfold CLQT.parBackwardExtract
    simp only [List.length_map, List.length_range, Nat.add_sub_cancel, Option.getD_some, P.dtPar_some]
    rw [hb, pyGet_seq w (by omega), hb]
    choose b hbk using fun q : ℕ => hreg.seqBackward steps dt (some (t0 + q * dt * steps)) (some (w (q + 1)).J) (some (w (q + 1)).eta)
    choose dt' hdt' σ κ h0 hseq hbl using fun q => CLQT.seqBackward_ok.1 (hbk q)
    rw [mapM_range_of (g := fun q => (List.range steps).map fun i => ((κ q i).1, (κ q i).2, (σ q (i + 1)).1, (σ q (i + 1)).2)) (by
      intro q hq
      rw [pyGet_seq w (by omega), hb, hbk q, hb, hbl q]
      simp only [bwLists, List.length_map, List.length_range]
      refine mapM_range_of fun i hi => ?_
      rw [pyGet_seq _ (by omega), pyGet_seq _ (by omega), pyGet_seq _ (by omega), pyGet_seq _ (by omega)]
      rfl)]
    exact ⟨_, rfl⟩
  obtain ⟨r, hr⟩ := hex
  refine ⟨r, ?_, ?_⟩
  · unfold CLQT.parBackwardPass
    simp only [P.dtPar_some, Option.getD_some]
    rw [hb, hes, hb, hel, hb, hr]
  · unfold CLQT.tfParBackward
    obtain ⟨_, h1, rfl⟩ := (CLQT.solvRel_pd hU true).parBackwardInit forward blocks hs dt t0 es hes
    rw [h1, hb, hrl, hb, heq]
    rw [hw] at hr ⊢
    obtain ⟨_, h3, rfl⟩ := (CLQT.solvRel_pd hU true).parBackwardExtract w blocks steps dt t0 r hr
    exact h3

end Ordered

end Verif
