import Verif.Proof.CLQTTensorMat

/-! The sequential passes and the combination of `clqt_tf.py` on tensors. -/

namespace Verif

open Matrix

variable {n m : ℕ} {K : Type}

theorem Tens.HoldsM.bat {a b : ℕ} {t : Tens K} {l : List (Matrix (Fin a) (Fin b) K)} (h : t.HoldsM l) : t.Bat [a, b] (fun t (A : Matrix (Fin a) (Fin b) K) => t.IsM A) l :=
  ⟨h.1, fun k hk => ⟨rfl, fun i j => h.2 k hk i j⟩⟩

theorem Tens.IsB.holdsM {a b : ℕ} {t : Tens K} {l : List (Matrix (Fin a) (Fin b) K)} (h : t.Bat [a, b] (fun t (A : Matrix (Fin a) (Fin b) K) => t.IsM A) l) : t.HoldsM l :=
  ⟨h.1, fun k hk i j => (h.2 k hk).2 i j⟩

theorem Tens.HoldsV.bat {a : ℕ} {t : Tens K} {l : List (Fin a → K)} (h : t.HoldsV l) : t.Bat [a] (fun t A => t.IsV A) l :=
  ⟨h.1, fun k hk => ⟨rfl, fun i => h.2 k hk i⟩⟩

theorem Tens.IsB.holdsV {a : ℕ} {t : Tens K} {l : List (Fin a → K)} (h : t.Bat [a] (fun t A => t.IsV A) l) : t.HoldsV l :=
  ⟨h.1, fun k hk i => (h.2 k hk).2 i⟩

theorem stackT {β : Type} {s : List ℕ} {R : Tens K → β → Prop} (hR : TensRel s R) {t0 : Tens K} {b0 : β} (h0 : R t0 b0) {ts : List (Tens K)}
    {l : List β} (h : List.Forall₂ R ts l) : ∃ t, Tens.stack t0.shape t0.val ts = .ok t ∧ t.Bat s R l := by
  rw [hR.shape h0]
  exact stack_bat hR h _

theorem forall₂_maps {α β γ δ : Type} {Q : α → β → Prop} {R : γ → δ → Prop} {f : α → γ} {g : β → δ} {l : List α} {l' : List β}
    (h : List.Forall₂ Q l l') (hf : ∀ a b, Q a b → R (f a) (g b)) : List.Forall₂ R (l.map f) (l'.map g) := by
  induction h with
  | nil => exact .nil
  | cons h _ ih => exact .cons (hf _ _ h) ih

theorem forall₂_zips {α β γ δ : Type} {Q : α → β → Prop} {R : γ → δ → Prop} {l : List α} {l' : List β} {r : List γ} {r' : List δ}
    (h : List.Forall₂ Q l l') (h' : List.Forall₂ R r r') : List.Forall₂ (fun a b => Q a.1 b.1 ∧ R a.2 b.2) (l.zip r) (l'.zip r') := by
  induction h generalizing r r' with
  | nil => exact .nil
  | cons h _ ih => cases h' with
    | nil => exact .nil
    | cons h1 h2 => exact .cons ⟨h, h1⟩ (ih h2)

theorem tfScanRev_len {α β : Type} {body : β → α → Py β} {i : β} {l : List α} : ∀ {r : List β × β}, tfScanRev body i l = .ok r → r.1.length = l.length := by
  induction l with
  | nil => intro r h; cases h; rfl
  | cons a l ih =>
    intro r h
    rw [tfScanRev] at h
    obtain ⟨r', h1, h⟩ := bind_ok.1 h
    obtain ⟨c, h2, h⟩ := bind_ok.1 h
    cases h
    simp [ih h1]

theorem tfScanFwdM_len {α β : Type} {body : β → α → Py β} {l : List α} : ∀ {i : β} {r : List β}, tfScanFwdM body i l = .ok r → r.length = l.length := by
  induction l with
  | nil => intro i r h; cases h; rfl
  | cons a l ih =>
    intro i r h
    rw [tfScanFwdM] at h
    obtain ⟨c, h2, h⟩ := bind_ok.1 h
    obtain ⟨r', h1, h⟩ := bind_ok.1 h
    cases h
    simp [ih h1]

variable [Field K]

theorem times_eq (steps : ℕ) (dt t0 : K) : (((List.range steps).map fun k : ℕ => (k : K) * dt).map (t0 + ·)) = tfTimes steps dt t0 := by
  rw [List.map_map]; rfl

theorem tfTimes_length (steps : ℕ) (dt t0 : K) : (tfTimes steps dt t0).length = steps := by simp [tfTimes]

section Ordered
variable [LinearOrder K] {p : TensCLQT K} {P : CLQT n m K}

/-! ### Backward pass -/

/-- The carry of the scan. -/
structure CarryRep (t : TensCarry K) (c : TCarry n m K) : Prop where
  S : t.S.IsM c.S
  v : t.v.IsV c.v
  Kx : t.Kx.IsM c.Kx
  d : t.d.IsV c.d

theorem clqtBwBody_rep (hp : p.Holds P) (dt : K) {tc : TensCarry K} {c : TCarry n m K} (hc : CarryRep tc c) (t : K) :
    PyRep CarryRep (tensClqtBwBody p dt tc t) (P.tfBwBody dt c t) := by
  unfold tensClqtBwBody CLQT.tfBwBody
  refine .left (packSv_rep hc.S hc.v) fun x hx => ?_
  refine (rk4_rep linM (fun x X s h => riccatiF_rep hp s h) hx (-dt) (t + dt)).bind fun y Y hy => ?_
  have hu := unpackSv_rep hy
  generalize unpackSvTF Y = q at hu ⊢
  obtain ⟨S, v⟩ := q
  refine .left hu fun r hr => ?_
  obtain ⟨tS, tv⟩ := r
  obtain ⟨hS, hv⟩ := hr
  dsimp only at hS hv ⊢
  refine .left hS.sym fun S1 hS1 => ?_
  refine .left (hp.L t).mT fun LT hLT => ?_
  refine ((hp.U t).solveT hLT).bind fun W Z hW => ?_
  refine .left (hW.mm hS1) fun Kx hK => ?_
  refine .left (hW.mv hv) fun d hd => ?_
  exact .ok ⟨hS1, hv, hK, hd⟩

/-- The tensors and the numbers of items of a backward pass. -/
structure ClBwRep (steps : ℕ) (t : TensBw K) (r : BwResult n m K) : Prop where
  Ss : t.Ss.BatN (steps + 1) [n, n] (fun t (A : Matrix (Fin n) (Fin n) K) => t.IsM A) r.S_list
  vs : t.vs.BatN (steps + 1) [n] (fun t A => t.IsV A) r.v_list
  Kxs : t.Kxs.BatN steps [m, n] (fun t (A : Matrix (Fin m) (Fin n) K) => t.IsM A) r.Kx_list
  ds : t.ds.BatN steps [m] (fun t A => t.IsV A) r.d_list

omit [Field K] [LinearOrder K] in
theorem ClBwRep.holds {steps : ℕ} {t : TensBw K} {r : BwResult n m K} (h : ClBwRep steps t r) : t.Holds r :=
  ⟨h.Ss.2.holdsM, h.vs.2.holdsV, h.Kxs.2.holdsM, h.ds.2.holdsV⟩

theorem clqtBwPass_rep (hp : p.Holds P) (steps : ℕ) (dt t0 : K) {ST vT : Tens K} {ST' : Matrix (Fin n) (Fin n) K} {vT' : Fin n → K} (hS : ST.IsM ST')
    (hv : vT.IsV vT') : PyRep (ClBwRep steps) (tensClqtBwPass p steps dt t0 ST vT) (P.tfSeqBackward steps dt t0 ST' vT') := by
  unfold tensClqtBwPass CLQT.tfSeqBackward
  refine .left ⟨_, (hp.L 0).cols, rfl⟩ fun a ha => ?_
  refine .left ⟨_, (hp.L 0).rows, rfl⟩ fun b hb => ?_
  refine .left ⟨_, (hp.L 0).cols, rfl⟩ fun a' ha' => ?_
  subst ha hb ha'
  dsimp only
  rw [times_eq]
  have hsc := PyRep.scanRev (R := (· = ·)) (S := CarryRep) (body := tensClqtBwBody p dt) (body' := P.tfBwBody dt)
    (fun c c' x x' hc hx => hx ▸ clqtBwBody_rep hp dt hc x) (i := ⟨ST, vT, Tens.const [m, n] 0, Tens.const [m] 0⟩) (i' := ⟨ST', vT', 0, 0⟩)
    ⟨hS, hv, constM_zero m n, constV_zero m⟩ (forall₂_eq_self (tfTimes steps dt t0))
  refine PyRep.bind (hsc.with fun r r' e h => And.intro (tfScanRev_len e) h) fun r r' hr => ?_
  obtain ⟨hl, hr, -⟩ := hr
  rw [tfTimes_length] at hl
  refine .left (stackT isM_rel hS (forall₂_maps hr fun a b h => h.S)) fun Ss hSs => ?_
  refine .left (stackT isV_rel hv (forall₂_maps hr fun a b h => h.v)) fun vs hvs => ?_
  refine .left (stackT isM_rel (constM_zero m n) (forall₂_maps hr fun a b h => h.Kx)) fun Kxs hKxs => ?_
  refine .left (stackT isV_rel (constV_zero m) (forall₂_maps hr fun a b h => h.d)) fun ds hds => ?_
  refine .left (expand_bat isM_rel hS) fun S1 hS1 => ?_
  refine .left (hSs.concat hS1) fun Ss1 hSs1 => ?_
  refine .left (expand_bat isV_rel hv) fun v1 hv1 => ?_
  refine .left (hvs.concat hv1) fun vs1 hvs1 => ?_
  exact .ok ⟨⟨by simp [hl], hSs1⟩, ⟨by simp [hl], hvs1⟩, ⟨by simp [hl], hKxs⟩, ⟨by simp [hl], hds⟩⟩

/-- The tensors of several backward passes. -/
structure BwsRep (steps : ℕ) (t : TensBw K) (rs : List (BwResult n m K)) : Prop where
  Ss : t.Ss.Bat ((steps + 1) :: [n, n]) (Tens.BatN (steps + 1) [n, n] (fun t (A : Matrix (Fin n) (Fin n) K) => t.IsM A)) (rs.map (·.S_list))
  vs : t.vs.Bat ((steps + 1) :: [n]) (Tens.BatN (steps + 1) [n] fun t A => t.IsV A) (rs.map (·.v_list))
  Kxs : t.Kxs.Bat (steps :: [m, n]) (Tens.BatN steps [m, n] (fun t (A : Matrix (Fin m) (Fin n) K) => t.IsM A)) (rs.map (·.Kx_list))
  ds : t.ds.Bat (steps :: [m]) (Tens.BatN steps [m] fun t A => t.IsV A) (rs.map (·.d_list))

theorem clqtBwBatch_rep (hp : p.Holds P) (steps : ℕ) (dt : K) {t0 : List K} {ST vT : Tens K} {Js : List (Matrix (Fin n) (Fin n) K)} {es : List (Fin n → K)}
    (hS : ST.Bat [n, n] (fun t (A : Matrix (Fin n) (Fin n) K) => t.IsM A) Js) (hv : vT.Bat [n] (fun t A => t.IsV A) es) (h1 : Js.length = t0.length) (h2 : es.length = t0.length)
    (hne : t0 ≠ []) :
    PyRep (BwsRep steps) (tensClqtBwBatch p steps dt t0 ST vT) ((t0.zip (Js.zip es)).mapM fun a => P.tfSeqBackward steps dt a.1 a.2.1 a.2.2) := by
  unfold tensClqtBwBatch
  refine .left hS.itemsR fun Sl hSl => ?_
  refine .left hv.itemsR fun vl hvl => ?_
  rw [if_neg (by rw [hSl.length_eq, hvl.length_eq, h1, h2]; simp)]
  have hm := PyRep.mapM (R := fun (a : K × Tens K × Tens K) (b : K × Matrix (Fin n) (Fin n) K × (Fin n → K)) =>
      a.1 = b.1 ∧ (a.2.1.IsM b.2.1 ∧ a.2.2.IsV b.2.2)) (S := ClBwRep steps)
    (f := fun e => tensClqtBwPass p steps dt e.1 e.2.1 e.2.2) (g := fun a => P.tfSeqBackward steps dt a.1 a.2.1 a.2.2)
    (fun a b h => by rw [h.1]; exact clqtBwPass_rep hp steps dt b.1 h.2.1 h.2.2) (forall₂_zips (forall₂_eq_self t0) (forall₂_zips hSl hvl))
  rw [← bind_pure (List.mapM _ (t0.zip (Js.zip es)))]
  refine PyRep.bind (hm.with fun r r' e h => And.intro (mapM_ok_iff.1 e).length_eq h) fun r r' hr => ?_
  obtain ⟨hl, hr⟩ := hr
  have hl0 : 0 < t0.length := List.length_pos_iff.2 hne
  have hne' : ∀ {γ : Type} (f : BwResult n m K → γ), r'.map f ≠ [] := by
    intro γ f h0
    have := List.map_eq_nil_iff.1 h0
    subst this
    simp [h1, h2] at hl
    exact hne hl
  refine .left (stackAll_bat (isM_rel.bat (steps + 1)) (forall₂_maps hr fun a b h => h.Ss) (hne' _)) fun Ss hSs => ?_
  refine .left (stackAll_bat (isV_rel.bat (steps + 1)) (forall₂_maps hr fun a b h => h.vs) (hne' _)) fun vs hvs => ?_
  refine .left (stackAll_bat (isM_rel.bat steps) (forall₂_maps hr fun a b h => h.Kxs) (hne' _)) fun Kxs hKxs => ?_
  refine .left (stackAll_bat (isV_rel.bat steps) (forall₂_maps hr fun a b h => h.ds) (hne' _)) fun ds hds => ?_
  exact .ok ⟨hSs, hvs, hKxs, hds⟩

/-! ### Forward pass -/

omit [LinearOrder K] in
theorem clqtFwBody_rep (hp : p.Holds P) (u_zoh : Bool) (dt : K) {c : Tens K × Tens K} {c' : (Fin n → K) × (Fin m → K)} (hc : c.1.IsV c'.1)
    {i : K × Tens K × Tens K} {i' : K × Matrix (Fin m) (Fin n) K × (Fin m → K)} (h0 : i.1 = i'.1) (hK : i.2.1.IsM i'.2.1) (hd : i.2.2.IsV i'.2.2) :
    PyRep (fun r r' => r.1.IsV r'.1 ∧ r.2.IsV r'.2) (tensClqtFwBody p u_zoh dt c i) (P.tfFwBody u_zoh dt c' i') := by
  obtain ⟨t, Kx, d⟩ := i
  obtain ⟨t', Kx', d'⟩ := i'
  obtain ⟨x, u0⟩ := c
  dsimp only at h0 hK hd hc
  subst h0
  unfold tensClqtFwBody CLQT.tfFwBody
  refine .left (hK.mv hc) fun a ha => ?_
  refine .left (ha.neg.add hd) fun u hu => ?_
  have key : PyRep (fun (r : Tens K) (Y : Fin n → K) => r.IsV Y)
      (if u_zoh = true then tensRk4 (tensFzoh p u) dt x t else tensRk4 (tensFnoZoh p Kx d) dt x t)
      (if u_zoh = true then rk4TF P.tfFzoh dt c'.1 t (-(Kx' *ᵥ c'.1) + d') else rk4TF P.tfFnoZoh dt c'.1 t (Kx', d')) := by
    cases u_zoh
    · exact rk4_rep linV (fun x X s h => fnoZoh_rep hp s hK hd h) hc dt t
    · exact rk4_rep linV (fun x X s h => fzoh_rep hp s hu h) hc dt t
  exact key.bind fun y Y hy => .ok ⟨hy, hu⟩

/-- The tensors and the numbers of items of a forward pass. -/
structure ClFwRep (steps : ℕ) (t : Tens K × Tens K) (r : List (Fin n → K) × List (Fin m → K)) : Prop where
  xs : t.1.BatN (steps + 1) [n] (fun t A => t.IsV A) r.1
  us : t.2.BatN steps [m] (fun t A => t.IsV A) r.2

omit [LinearOrder K] in
theorem clqtFwPass_rep (hp : p.Holds P) (u_zoh : Bool) (dt t0 : K) {x0 Kxs ds : Tens K} {x0' : Fin n → K} {Kl : List (Matrix (Fin m) (Fin n) K)}
    {dl : List (Fin m → K)} (hx : x0.IsV x0') (hK : Kxs.Bat [m, n] (fun t (A : Matrix (Fin m) (Fin n) K) => t.IsM A) Kl) (hd : ds.Bat [m] (fun t A => t.IsV A) dl) :
    PyRep (ClFwRep dl.length) (tensClqtFwPass p u_zoh dl.length dt t0 x0 Kxs ds) (P.tfSeqForward x0' Kl dl dt t0 u_zoh) := by
  have hu0 : PyRep (fun (r : Tens K) Y => r.IsV Y) (ds.select 0 0) (pyGet dl 0) := hd.ends false
  unfold tensClqtFwPass CLQT.tfSeqForward
  obtain ⟨Ki, eK, hKi⟩ := hK.itemsR
  obtain ⟨di, ed, hdi⟩ := hd.itemsR
  by_cases hl : Kl.length ≠ dl.length
  · rw [if_pos hl]
    cases h0 : ds.select 0 0 with
    | error e => exact ⟨e, rfl⟩
    | ok u0 =>
      refine ⟨.valueError, ?_⟩
      refine bstep rfl (bstep eK (bstep ed ?_))
      rw [if_pos (by left; rw [hKi.length_eq]; exact hl)]
      rfl
  · rw [if_neg hl]
    have hl : Kl.length = dl.length := not_not.1 hl
    refine hu0.bind fun u0 u0' hu => ?_
    refine .left ⟨_, eK, rfl⟩ fun _ h => ?_
    subst h
    refine .left ⟨_, ed, rfl⟩ fun _ h => ?_
    subst h
    rw [if_neg (by rw [hKi.length_eq, hdi.length_eq, hl]; simp), times_eq]
    have hsc := PyRep.scanFwd (R := fun (a : K × Tens K × Tens K) (b : K × Matrix (Fin m) (Fin n) K × (Fin m → K)) =>
        a.1 = b.1 ∧ (a.2.1.IsM b.2.1 ∧ a.2.2.IsV b.2.2)) (S := fun (r : Tens K × Tens K) (r' : (Fin n → K) × (Fin m → K)) => r.1.IsV r'.1 ∧ r.2.IsV r'.2)
      (body := tensClqtFwBody p u_zoh dt) (body' := P.tfFwBody u_zoh dt) (fun c c' x x' hc h => clqtFwBody_rep hp u_zoh dt hc.1 h.1 h.2.1 h.2.2)
      (forall₂_zips (forall₂_eq_self (tfTimes dl.length dt t0)) (forall₂_zips hKi hdi)) (i := (x0, u0)) (i' := (x0', u0')) ⟨hx, hu⟩
    refine PyRep.bind (hsc.with fun r r' e h => And.intro (tfScanFwdM_len e) h) fun r r' hr => ?_
    obtain ⟨hlr, hr⟩ := hr
    have hlr : r'.length = dl.length := by rw [hlr]; simp [tfTimes_length, hl]
    refine .left (stackT isV_rel hx (forall₂_maps hr fun a b h => h.1)) fun xs hxs => ?_
    refine .left (stackT isV_rel hu (forall₂_maps hr fun a b h => h.2)) fun us hus => ?_
    refine .left (expand_bat isV_rel hx) fun x1 hx1 => ?_
    refine .left (hx1.concat hxs) fun xs1 hxs1 => ?_
    exact .ok ⟨⟨by simp [hlr], hxs1⟩, ⟨by simp [hlr], hus⟩⟩

omit [Field K] [LinearOrder K] in
theorem Tens.HoldsV.size2 {a : ℕ} {t : Tens K} {l : List (Fin a → K)} (h : t.HoldsV l) : t.size (-2) = .ok l.length := by
  rw [Tens.size, h.1]; rfl

omit [LinearOrder K] in
theorem clqtSeqForward_rep (hp : p.Holds P) (u_zoh : Bool) (dt t0 : K) {x0 Kxs ds : Tens K} {x0' : Fin n → K} {Kl : List (Matrix (Fin m) (Fin n) K)}
    {dl : List (Fin m → K)} (hx : x0.IsV x0') (hK : Kxs.HoldsM Kl) (hd : ds.HoldsV dl) :
    PyRep (ClFwRep dl.length) (tensClqtSeqForward p u_zoh x0 Kxs ds dt t0) (P.tfSeqForward x0' Kl dl dt t0 u_zoh) := by
  unfold tensClqtSeqForward
  refine .left ⟨_, hd.size2, rfl⟩ fun _ h => ?_
  subst h
  exact clqtFwPass_rep hp u_zoh dt t0 hx hK.bat hd.bat

/-- The tensors of several forward passes. -/
structure FwsRep (steps : ℕ) (t : Tens K × Tens K) (rs : List (List (Fin n → K) × List (Fin m → K))) : Prop where
  xs : t.1.Bat ((steps + 1) :: [n]) (Tens.BatN (steps + 1) [n] fun t A => t.IsV A) (rs.map (·.1))
  us : t.2.Bat (steps :: [m]) (Tens.BatN steps [m] fun t A => t.IsV A) (rs.map (·.2))

omit [LinearOrder K] in
theorem clqtFwBatch_rep (hp : p.Holds P) (u_zoh : Bool) (steps : ℕ) (dt : K) {t0 : List K} {x0 Kxs ds : Tens K} {xl : List (Fin n → K)}
    {Kl : List (List (Matrix (Fin m) (Fin n) K))} {dl : List (List (Fin m → K))} (hx : x0.Bat [n] (fun t A => t.IsV A) xl)
    (hK : Kxs.Bat (steps :: [m, n]) (Tens.BatN steps [m, n] (fun t (A : Matrix (Fin m) (Fin n) K) => t.IsM A)) Kl) (hd : ds.Bat (steps :: [m]) (Tens.BatN steps [m] fun t A => t.IsV A) dl)
    (h1 : xl.length = t0.length) (h2 : Kl.length = t0.length) (h3 : dl.length = t0.length) (hne : t0 ≠ []) :
    PyRep (FwsRep steps) (tensClqtFwBatch p u_zoh x0 Kxs ds dt t0)
      ((t0.zip (xl.zip (Kl.zip dl))).mapM fun a => P.tfSeqForward a.2.1 a.2.2.1 a.2.2.2 dt a.1 u_zoh) := by
  unfold tensClqtFwBatch
  have hsz : ds.size (-2) = .ok steps := by rw [Tens.size, hd.1]; rfl
  refine .left ⟨_, hsz, rfl⟩ fun _ h => ?_
  subst h
  refine .left hx.itemsR fun xi hxi => ?_
  refine .left hK.itemsR fun Ki hKi => ?_
  refine .left hd.itemsR fun di hdi => ?_
  rw [if_neg (by rw [hxi.length_eq, hKi.length_eq, hdi.length_eq, h1, h2, h3]; simp)]
  have hm := PyRep.mapM (R := fun (a : K × Tens K × Tens K × Tens K) (b : K × (Fin n → K) × List (Matrix (Fin m) (Fin n) K) × List (Fin m → K)) =>
      a.1 = b.1 ∧ (a.2.1.IsV b.2.1 ∧ (a.2.2.1.BatN steps [m, n] (fun t (A : Matrix (Fin m) (Fin n) K) => t.IsM A) b.2.2.1 ∧ a.2.2.2.BatN steps [m] (fun t A => t.IsV A) b.2.2.2)))
    (S := ClFwRep steps) (f := fun e => tensClqtFwPass p u_zoh steps dt e.1 e.2.1 e.2.2.1 e.2.2.2)
    (g := fun a => P.tfSeqForward a.2.1 a.2.2.1 a.2.2.2 dt a.1 u_zoh)
    (fun a b h => by
      rw [h.1]
      have := clqtFwPass_rep hp u_zoh dt b.1 h.2.1 h.2.2.1.2 h.2.2.2.2
      rw [h.2.2.2.1] at this
      exact this) (forall₂_zips (forall₂_eq_self t0) (forall₂_zips hxi (forall₂_zips hKi hdi)))
  rw [← bind_pure (List.mapM _ (t0.zip (xl.zip (Kl.zip dl))))]
  refine PyRep.bind (hm.with fun r r' e h => And.intro (mapM_ok_iff.1 e).length_eq h) fun r r' hr => ?_
  obtain ⟨hl, hr⟩ := hr
  have hne' : ∀ {γ : Type} (f : (List (Fin n → K) × List (Fin m → K)) → γ), r'.map f ≠ [] := by
    intro γ f h0
    have := List.map_eq_nil_iff.1 h0
    subst this
    simp [h1, h2, h3] at hl
    exact hne hl
  refine .left (stackAll_bat (isV_rel.bat (steps + 1)) (forall₂_maps hr fun a b h => h.xs) (hne' _)) fun xs hxs => ?_
  refine .left (stackAll_bat (isV_rel.bat steps) (forall₂_maps hr fun a b h => h.us) (hne' _)) fun us hus => ?_
  exact .ok ⟨hxs, hus⟩

/-! ### Forward-backward pass -/

/-- The tensors of one value function in the form of a conditional value function. -/
structure AbcRep (t : TensAbc K) (r : Matrix (Fin n) (Fin n) K × (Fin n → K) × Matrix (Fin n) (Fin n) K) : Prop where
  A : t.A.IsM r.1
  b : t.b.IsV r.2.1
  C : t.C.IsM r.2.2

theorem abcBody_rep (hp : p.Holds P) (dt : K) {tc : TensAbc K} {c : Matrix (Fin n) (Fin n) K × (Fin n → K) × Matrix (Fin n) (Fin n) K}
    (hc : AbcRep tc c) (t : K) : PyRep AbcRep (tensAbcBody p dt tc t) (P.tfAbcBody dt c t) := by
  unfold tensAbcBody CLQT.tfAbcBody
  refine .left (packAbc_rep hc.A hc.b hc.C) fun x hx => ?_
  refine (rk4_rep linM (fun x X s h => abcF_rep hp s h) hx dt t).bind fun y Y hy => ?_
  have hu := unpackAbc_rep hy
  generalize unpackABCTF Y = q at hu ⊢
  obtain ⟨A, b, C⟩ := q
  refine .left hu fun r hr => ?_
  obtain ⟨tA, tb, tC⟩ := r
  obtain ⟨hA, hb, hC⟩ := hr
  dsimp only at hA hb hC ⊢
  refine .left hC.sym fun C1 hC1 => ?_
  exact .ok ⟨hA, hb, hC1⟩

/-- The tensors and the numbers of items of a forward-backward pass. -/
structure AbcPassRep (steps : ℕ) (t : TensAbc K) (r : AbcResult n K) : Prop where
  A : t.A.BatN (steps + 1) [n, n] (fun t (A : Matrix (Fin n) (Fin n) K) => t.IsM A) r.A_list
  b : t.b.BatN (steps + 1) [n] (fun t A => t.IsV A) r.b_list
  C : t.C.BatN (steps + 1) [n, n] (fun t (A : Matrix (Fin n) (Fin n) K) => t.IsM A) r.C_list

omit [Field K] [LinearOrder K] in
theorem AbcPassRep.holds {steps : ℕ} {t : TensAbc K} {r : AbcResult n K} (h : AbcPassRep steps t r) : t.Holds r :=
  ⟨h.A.2.holdsM, h.b.2.holdsV, h.C.2.holdsM⟩

theorem abcPass_rep (hp : p.Holds P) (steps : ℕ) (dt t0 : K) {te : TensAbc K} {A : Matrix (Fin n) (Fin n) K} {b : Fin n → K} {C : Matrix (Fin n) (Fin n) K}
    (h : AbcRep te (A, b, C)) : PyRep (AbcPassRep steps) (tensAbcPass p steps dt t0 te) (P.tfSeqFwdBwd steps dt t0 A b C) := by
  unfold tensAbcPass CLQT.tfSeqFwdBwd
  dsimp only
  rw [times_eq]
  have hsc := PyRep.scanFwd (R := (· = ·)) (S := AbcRep) (body := tensAbcBody p dt) (body' := P.tfAbcBody dt)
    (fun c c' x x' hc hx => hx ▸ abcBody_rep hp dt hc x) (forall₂_eq_self (tfTimes steps dt t0)) h
  refine PyRep.bind (hsc.with fun r r' e h => And.intro (tfScanFwdM_len e) h) fun r r' hr => ?_
  obtain ⟨hl, hr⟩ := hr
  rw [tfTimes_length] at hl
  refine .left (stackT isM_rel h.A (forall₂_maps hr fun a b h => h.A)) fun As hAs => ?_
  refine .left (stackT isV_rel h.b (forall₂_maps hr fun a b h => h.b)) fun bs hbs => ?_
  refine .left (stackT isM_rel h.C (forall₂_maps hr fun a b h => h.C)) fun Cs hCs => ?_
  refine .left (expand_bat isM_rel h.A) fun A1 hA1 => ?_
  refine .left (hA1.concat hAs) fun A2 hA2 => ?_
  refine .left (expand_bat isV_rel h.b) fun b1 hb1 => ?_
  refine .left (hb1.concat hbs) fun b2 hb2 => ?_
  refine .left (expand_bat isM_rel h.C) fun C1 hC1 => ?_
  refine .left (hC1.concat hCs) fun C2 hC2 => ?_
  exact .ok ⟨⟨by simp [hl], hA2⟩, ⟨by simp [hl], hb2⟩, ⟨by simp [hl], hC2⟩⟩

/-- The tensors of several forward-backward passes. -/
structure AbcsRep (steps : ℕ) (t : TensAbc K) (rs : List (AbcResult n K)) : Prop where
  A : t.A.Bat ((steps + 1) :: [n, n]) (Tens.BatN (steps + 1) [n, n] (fun t (A : Matrix (Fin n) (Fin n) K) => t.IsM A)) (rs.map (·.A_list))
  b : t.b.Bat ((steps + 1) :: [n]) (Tens.BatN (steps + 1) [n] fun t A => t.IsV A) (rs.map (·.b_list))
  C : t.C.Bat ((steps + 1) :: [n, n]) (Tens.BatN (steps + 1) [n, n] (fun t (A : Matrix (Fin n) (Fin n) K) => t.IsM A)) (rs.map (·.C_list))

theorem abcBatch_rep (hp : p.Holds P) (steps : ℕ) (dt : K) {t0 : List K} {te : TensAbc K} {el : List (Elem n K)}
    (hA : te.A.Bat [n, n] (fun t (A : Matrix (Fin n) (Fin n) K) => t.IsM A) (el.map (·.A))) (hb : te.b.Bat [n] (fun t A => t.IsV A) (el.map (·.b)))
    (hC : te.C.Bat [n, n] (fun t (A : Matrix (Fin n) (Fin n) K) => t.IsM A) (el.map (·.C))) (h1 : el.length = t0.length) (hne : t0 ≠ []) :
    PyRep (fun t rs => AbcsRep steps t rs ∧ rs.length = t0.length) (tensAbcBatch p steps dt t0 te)
      ((t0.zip el).mapM fun a => P.tfSeqFwdBwd steps dt a.1 a.2.A a.2.b a.2.C) := by
  unfold tensAbcBatch
  refine .left hA.itemsR fun Ai hAi => ?_
  refine .left hb.itemsR fun bi hbi => ?_
  refine .left hC.itemsR fun Ci hCi => ?_
  rw [if_neg (by rw [hAi.length_eq, hbi.length_eq, hCi.length_eq]; simp [h1])]
  rw [List.forall₂_map_right_iff] at hAi hbi hCi
  have hz := forall₂_zips (forall₂_eq_self t0) (forall₂_zip_of hAi (forall₂_zip_of hbi hCi))
  have hm := PyRep.mapM (S := AbcPassRep steps) (f := fun a => tensAbcPass p steps dt a.1 ⟨a.2.1, a.2.2.1, a.2.2.2⟩)
    (g := fun a => P.tfSeqFwdBwd steps dt a.1 a.2.A a.2.b a.2.C)
    (fun a b h => by rw [h.1]; exact abcPass_rep hp steps dt b.1 ⟨h.2.1, h.2.2.1, h.2.2.2⟩) hz
  rw [← bind_pure (List.mapM _ (t0.zip el))]
  refine PyRep.bind (hm.with fun r r' e h => And.intro (mapM_ok_iff.1 e).length_eq h) fun r r' hr => ?_
  obtain ⟨hl, hr⟩ := hr
  have hl : r'.length = t0.length := by rw [← hl]; simp [h1]
  have hne' : ∀ {γ : Type} (f : AbcResult n K → γ), r'.map f ≠ [] := by
    intro γ f h0
    have := List.map_eq_nil_iff.1 h0
    subst this
    exact hne (List.length_eq_zero_iff.1 hl.symm)
  refine .left (stackAll_bat (isM_rel.bat (steps + 1)) (forall₂_maps hr fun a b h => h.A) (hne' _)) fun As hAs => ?_
  refine .left (stackAll_bat (isV_rel.bat (steps + 1)) (forall₂_maps hr fun a b h => h.b) (hne' _)) fun bs hbs => ?_
  refine .left (stackAll_bat (isM_rel.bat (steps + 1)) (forall₂_maps hr fun a b h => h.C) (hne' _)) fun Cs hCs => ?_
  exact .ok ⟨⟨hAs, hbs, hCs⟩, hl⟩

/-! ### Combination -/

omit [LinearOrder K] in
/-- The identity added to every item of a batch. -/
theorem Tens.IsMt.eye2Add {β : Type} {a : ℕ} {t : Tens K} {bs : List β} {f : β → Matrix (Fin a) (Fin a) K} (h : t.HM bs f) :
    ∃ r, (Tens.eye2 a : Tens K).bin (· + ·) t = .ok r ∧ r.HM bs fun x => 1 + f x := by
  obtain ⟨s, v⟩ := t
  obtain ⟨h1, h2⟩ := h
  dsimp only at h1 h2
  subst h1
  refine ⟨_, Tens.bin_eq (s := [bs.length, a, a]) (by simp [padShape, Tens.eye2]) (by simp [padShape, Tens.eye2]), by simp, fun k hk i j => ?_⟩
  dsimp only
  have e := h2 k hk i j
  simp only [Equiv.refl_apply] at e ⊢
  rw [Matrix.add_apply, ← e, one_apply]
  have hi := i.2
  have hj := j.2
  simp [bcastIdx, padShape, bc_lt, hk, Tens.eye2, Fin.val_inj]

theorem clqtCombine_rep {N : ℕ} {Ss vs Kxs ds bs Cs : Tens K} {bw : BwResult n m K} {fw : AbcResult n K} (hS : Ss.HoldsM bw.S_list) (hv : vs.HoldsV bw.v_list)
    (hK : Kxs.HoldsM bw.Kx_list) (hd : ds.HoldsV bw.d_list) (hb : bs.HoldsV fw.b_list) (hC : Cs.HoldsM fw.C_list)
    (l1 : bw.S_list.length = N + 1) (l2 : bw.v_list.length = N + 1) (l3 : bw.Kx_list.length = N) (l4 : bw.d_list.length = N)
    (l5 : fw.b_list.length = N + 1) (l6 : fw.C_list.length = N + 1) :
    PyRep (fun t r => t.1.HoldsV r.1 ∧ t.2.HoldsV r.2) (tensClqtCombine Kxs ds Ss vs bs Cs) (clqtTfCombine bw fw) := by
  unfold tensClqtCombine clqtTfCombine
  rw [if_neg (by rw [l1, l2, l3, l4, l5, l6]; simp)]
  have hz : (fw.C_list.zip fw.b_list).length = (bw.S_list.zip bw.v_list).length := by simp [l1, l2, l5, l6]
  have kC := Tens.IsMt.zipL (cs := bw.S_list.zip bw.v_list) (Tens.IsMt.zipL (cs := fw.b_list) hC (by rw [l5, l6])) hz
  have kb := Tens.IsVt.zipL (cs := bw.S_list.zip bw.v_list) (Tens.IsVt.zipR (bs := fw.C_list) hb (by rw [l5, l6])) hz
  have kS := Tens.IsMt.zipR (bs := fw.C_list.zip fw.b_list) (Tens.IsMt.zipL (cs := bw.v_list) hS (by rw [l1, l2])) hz
  have kv := Tens.IsVt.zipR (bs := fw.C_list.zip fw.b_list) (Tens.IsVt.zipR (bs := bw.S_list) hv (by rw [l1, l2])) hz
  have hlz : ((fw.C_list.zip fw.b_list).zip (bw.S_list.zip bw.v_list)).length = N + 1 := by simp [l1, l2, l5, l6]
  generalize (fw.C_list.zip fw.b_list).zip (bw.S_list.zip bw.v_list) = Z at kC kb kS kv hlz ⊢
  have s2 : Cs.size (-1) = .ok n := by rw [Tens.size, hC.1]; rfl
  refine .left ⟨_, s2, rfl⟩ fun _ h => ?_
  subst h
  refine .left (kC.mm kS) fun CS hCS => ?_
  refine .left hCS.eye2Add fun W hW => ?_
  refine .left (kC.mv kv) fun Cv hCv => ?_
  refine .left (kb.add hCv) fun bC hbC => ?_
  refine .left hbC.col fun q1 hq1 => ?_
  have es : W.solveT q1 = W.solveM q1 := by rw [Tens.solveT, hW.1, hq1.1]
  obtain ⟨k1, k2⟩ := hW.solveM hq1
  obtain ⟨m1, m2⟩ := mapM_ite (bs := Z) (er := .linAlgError) (F := fun a => solveV (1 + a.1.1 * a.2.1) (a.1.2 + a.1.1 *ᵥ a.2.2))
    (P := fun a => (1 + a.1.1 * a.2.1).det ≠ 0) (G := fun a => minv (1 + a.1.1 * a.2.1) *ᵥ (a.1.2 + a.1.1 *ᵥ a.2.2))
    (fun x _ hx => by unfold solveV; rw [luFactor_det.1 hx]; rfl) (fun x _ hx => by unfold solveV; rw [luFactor_det.2 hx]; rfl)
  rw [es]
  by_cases hdet : ∀ a ∈ Z, (1 + a.1.1 * a.2.1).det ≠ 0
  · obtain ⟨q2, e11, hq2⟩ := k1 hdet
    obtain ⟨xs, e12, hxs⟩ := hq2.uncol
    have hxs : xs.HoldsV (Z.map fun a => minv (1 + a.1.1 * a.2.1) *ᵥ (a.1.2 + a.1.1 *ᵥ a.2.2)) := hxs.remap (by rw [List.map_map]; rfl)
    rw [m1 hdet]
    generalize hX : (Z.map fun a => minv (1 + a.1.1 * a.2.1) *ᵥ (a.1.2 + a.1.1 *ᵥ a.2.2)) = X at hxs ⊢
    have lX : X.length = N + 1 := by rw [← hX]; simp [hlz]
    obtain ⟨xi, e13, hxi⟩ := Tens.IsVt.init hxs
    have lK : bw.Kx_list.length = (bw.d_list.zip X.dropLast).length := by simp [l3, l4, lX]
    have ld : bw.d_list.length = X.dropLast.length := by simp [l4, lX]
    have jK := Tens.IsMt.zipL (cs := bw.d_list.zip X.dropLast) hK lK
    have jd := Tens.IsVt.zipR (bs := bw.Kx_list) (Tens.IsVt.zipL (cs := X.dropLast) hd ld) lK
    have jx := Tens.IsVt.zipR (bs := bw.Kx_list) (Tens.IsVt.zipR (bs := bw.d_list) hxi ld) lK
    obtain ⟨Kx, e14, hKx⟩ := jK.mv jx
    obtain ⟨us, e15, hus⟩ := hKx.neg.add jd
    refine ⟨(xs, us), bstep e11 (bstep e12 (bstep e13 (bstep e14 (bstep e15 rfl)))), hxs, ?_⟩
    refine hus.remap ?_
    refine List.ext_getElem (by simp [l3, l4, lX]) fun k h1 h2 => ?_
    simp
  · rw [k2 hdet, m2 hdet]
    exact ⟨_, rfl⟩

end Ordered

end Verif
