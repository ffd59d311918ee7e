import Verif.Proof.PararealTensor

/-! The forward and forward-backward passes of `parareal_clqt_tf.py` on tensors. -/

namespace Verif

open Matrix

variable {n m : ℕ} {K : Type} [Field K]

theorem ceil_mul {blocks steps : ℕ} (hs : 0 < steps) : (blocks * steps + steps - 1) / steps = blocks := by
  rw [Nat.add_sub_assoc hs, Nat.mul_comm, Nat.mul_add_div hs, Nat.div_eq_of_lt (by omega), Nat.add_zero]

section Forward
variable {p : TensCLQT K} {P : CLQT n m K}

theorem prInitFw_rep (hp : p.Holds P) (u_zoh : Bool) {blocks steps : ℕ} (hs : 0 < steps) {x0 Kxs ds : Tens K} {x0' : Fin n → K}
    {Kl : List (Matrix (Fin m) (Fin n) K)} {dl : List (Fin m → K)} (hx : x0.IsV x0') (hK : Kxs.HoldsM Kl) (hd : ds.HoldsV dl)
    (l1 : Kl.length = blocks * steps) (l2 : dl.length = blocks * steps) :
    PyRep (Tens.BatN (blocks + 1) [n] fun t (A : Fin n → K) => t.IsV A) (tensPrInitForward p u_zoh blocks steps P.T x0 Kxs ds)
      (P.tfPrInitForward blocks steps x0' Kl dl u_zoh) := by
  unfold tensPrInitForward CLQT.tfPrInitForward tfReshape
  dsimp only
  rw [if_pos l1, if_pos l2]
  refine PyRep.right (PyRep.right ?_)
  refine .left (splitM_rep hK l1) fun Kt hKt => ?_
  refine .left (splitV_rep hd l2) fun dt hdt => ?_
  obtain ⟨K1, L1, e1, f1, hK1⟩ := hKt.sel1 (k := 0) hs
  obtain ⟨d1, L2, e2, f2, hd1⟩ := hdt.sel1 (k := 0) hs
  have k2 := (mapM_ok_iff.1 f2).length_eq
  rw [List.length_map, List.length_range] at k2
  refine PyRep.rightEq f1 (PyRep.rightEq f2 ?_)
  refine .left ⟨_, e1, rfl⟩ fun _ h => ?_
  subst h
  refine .left ⟨_, e2, rfl⟩ fun _ h => ?_
  subst h
  refine PyRep.bind (clqtSeqForward_rep hp u_zoh _ 0 hx hK1.holdsM hd1.holdsV) fun r r' hr => .ok ?_
  rw [k2]
  exact hr.xs

/-- The forward passes over all blocks. -/
theorem prBatchFw_rep (hp : p.Holds P) (u_zoh : Bool) (dt : K) {blocks steps : ℕ} (hB : 0 < blocks) {xs Kxs ds : Tens K} {xl : List (Fin n → K)}
    {Kl : List (List (Matrix (Fin m) (Fin n) K))} {dl : List (List (Fin m → K))} (hx : xs.Bat [n] (fun t A => t.IsV A) xl)
    (hK : Kxs.Bat (steps :: [m, n]) (Tens.BatN steps [m, n] (fun t (A : Matrix (Fin m) (Fin n) K) => t.IsM A)) Kl)
    (hd : ds.Bat (steps :: [m]) (Tens.BatN steps [m] fun t A => t.IsV A) dl) (l1 : xl.length = blocks) (l2 : Kl.length = blocks)
    (l3 : dl.length = blocks) :
    PyRep (fun t rs => FwsRep steps t rs ∧ rs.length = blocks) (tensClqtFwBatch p u_zoh xs Kxs ds dt (tensPrTimes blocks steps dt))
      (((tfPrTimes blocks steps dt).zip (xl.zip (Kl.zip dl))).mapM fun a => P.tfSeqForward a.2.1 a.2.2.1 a.2.2.2 dt a.1 u_zoh) := by
  have hbl := tfPrTimes_length blocks steps dt
  refine (clqtFwBatch_rep hp u_zoh steps dt (t0 := tfPrTimes blocks steps dt) hx hK hd (by rw [hbl, l1]) (by rw [hbl, l2]) (by rw [hbl, l3])
    (by intro h0; rw [h0] at hbl; simp at hbl; omega)).with fun t rs e h => ⟨h, ?_⟩
  have := (mapM_ok_iff.1 e).length_eq
  rw [← this]
  simp [hbl, l1, l2, l3]

theorem prDenseFw_rep (hp : p.Holds P) (u_zoh : Bool) {blocks steps : ℕ} (hB : 0 < blocks) {xs Kxs ds : Tens K} {xl : List (Fin n → K)}
    {Kl : List (Matrix (Fin m) (Fin n) K)} {dl : List (Fin m → K)} (hx : xs.BatN (blocks + 1) [n] (fun t A => t.IsV A) xl) (hK : Kxs.HoldsM Kl)
    (hd : ds.HoldsV dl) (l1 : Kl.length = blocks * steps) (l2 : dl.length = blocks * steps) :
    PyRep (Tens.BatN (blocks + 1) [n] fun t (A : Fin n → K) => t.IsV A) (tensPrDenseForward p u_zoh steps P.T xs Kxs ds)
      (P.tfPrDenseForward steps xl Kl dl u_zoh) := by
  obtain ⟨l0, hx⟩ := hx
  unfold tensPrDenseForward CLQT.tfPrDenseForward tfReshape
  refine .left ⟨_, hx.size0R, rfl⟩ fun _ h => ?_
  subst h
  dsimp only
  rw [l0, Nat.add_sub_cancel, if_pos l1, if_pos l2]
  refine PyRep.right (PyRep.right ?_)
  refine .left (splitM_rep hK l1) fun Kt hKt => ?_
  refine .left (splitV_rep hd l2) fun dt hdt => ?_
  refine .left hx.init fun xi hxi => ?_
  refine PyRep.bind (prBatchFw_rep hp u_zoh _ hB hxi hKt hdt (by simp [l0]) (by simp) (by simp)) fun r rs hr => ?_
  obtain ⟨hr, hl⟩ := hr
  obtain ⟨x1, L1, e1, f1, hx1⟩ := hr.xs.last1
  have k1 := (mapM_ok_iff.1 f1).length_eq
  rw [List.length_map, hl] at k1
  rw [mapM_maps] at f1
  refine PyRep.rightEq f1 ?_
  refine .left ⟨_, e1, rfl⟩ fun _ h => ?_
  subst h
  have h0 : 0 < xl.length := by omega
  refine PyRep.rightEq (pyGet_lt h0) ?_
  refine .left (hx.sel0 h0) fun x2 hx2 => ?_
  obtain ⟨x3, e3, hx3⟩ := hx1.consItem isV_rel hx2
  rw [e3]
  exact .ok ⟨by simp [← k1], hx3⟩

theorem prCoarseFwBody_rep (hp : p.Holds P) (u_zoh : Bool) (dt : K) {c : Tens K × Tens K} {c' : (Fin n → K) × (Fin n → K)} (hc : c.1.IsV c'.1)
    {i : K × (Tens K × Tens K) × (Tens K × Tens K)} {i' : K × ((Fin n → K) × (Fin n → K)) × (Matrix (Fin m) (Fin n) K × (Fin m → K))}
    (h0 : i.1 = i'.1) (hF : i.2.1.1.IsV i'.2.1.1) (hG : i.2.1.2.IsV i'.2.1.2) (hK : i.2.2.1.IsM i'.2.2.1) (hd : i.2.2.2.IsV i'.2.2.2) :
    PyRep (fun r r' => r.1.IsV r'.1 ∧ r.2.IsV r'.2) (tensPrCoarseFwBody p u_zoh dt c i) (P.tfPrCoarseFwBody u_zoh dt c' i') := by
  obtain ⟨t, ⟨xF, xG⟩, ⟨Kx, d⟩⟩ := i
  obtain ⟨t', ⟨xF', xG'⟩, ⟨Kx', d'⟩⟩ := i'
  dsimp only at h0 hF hG hK hd
  subst h0
  unfold tensPrCoarseFwBody CLQT.tfPrCoarseFwBody
  dsimp only
  refine .left (expand_bat isM_rel hK) fun K1 hK1 => ?_
  refine .left (expand_bat isV_rel hd) fun d1 hd1 => ?_
  refine PyRep.bind (clqtSeqForward_rep hp u_zoh dt t hc hK1.holdsM hd1.holdsV) fun r r' hr => ?_
  refine PyRep.bind (hr.xs.2.ends true) fun x x' hx => ?_
  refine .left (hx.correct hF hG) fun y hy => ?_
  exact .ok ⟨hy, hx⟩

theorem prCoarseFw_rep (hp : p.Holds P) (u_zoh : Bool) {blocks steps : ℕ} (hs : 0 < steps) {xF xG Kxs ds : Tens K} {xFl xGl : List (Fin n → K)}
    {Kl : List (Matrix (Fin m) (Fin n) K)} {dl : List (Fin m → K)} (hF : xF.BatN (blocks + 1) [n] (fun t A => t.IsV A) xFl)
    (hG : xG.BatN (blocks + 1) [n] (fun t A => t.IsV A) xGl) (hK : Kxs.HoldsM Kl) (hd : ds.HoldsV dl) (l1 : Kl.length = blocks * steps)
    (l2 : dl.length = blocks * steps) :
    PyRep (fun r r' => Tens.BatN (blocks + 1) [n] (fun t (A : Fin n → K) => t.IsV A) r.1 r'.1 ∧ Tens.BatN (blocks + 1) [n] (fun t (A : Fin n → K) => t.IsV A) r.2 r'.2)
      (tensPrCoarseForward p u_zoh steps P.T xF xG Kxs ds) (P.tfPrCoarseForward steps xFl xGl Kl dl u_zoh) := by
  obtain ⟨l3, hF⟩ := hF
  obtain ⟨l4, hG⟩ := hG
  unfold tensPrCoarseForward CLQT.tfPrCoarseForward
  refine .left ⟨_, hF.size0R, rfl⟩ fun _ h => ?_
  subst h
  dsimp only
  rw [l3, Nat.add_sub_cancel]
  obtain ⟨K1, Kl1, e1, f1, hK1, m1⟩ := hK.bat.stride hs
  obtain ⟨d1, dl1, e2, f2, hd1, m2⟩ := hd.bat.stride hs
  rw [l1, ceil_mul hs] at m1
  rw [l2, ceil_mul hs] at m2
  refine PyRep.rightEq f1 (PyRep.rightEq f2 ?_)
  have h0 : 0 < xFl.length := by omega
  refine PyRep.rightEq (pyGet_lt h0) ?_
  refine .left hF.tail fun a ha => ?_
  refine .left (ha.itemsL (N := blocks) (by simp [l3])) fun iF ⟨hiF, k1⟩ => ?_
  refine .left hG.tail fun a ha => ?_
  refine .left (ha.itemsL (N := blocks) (by simp [l4])) fun iG ⟨hiG, k2⟩ => ?_
  refine .left ⟨_, e1, rfl⟩ fun _ h => ?_
  subst h
  refine .left (hK1.itemsL m1) fun iK ⟨hiK, k3⟩ => ?_
  refine .left ⟨_, e2, rfl⟩ fun _ h => ?_
  subst h
  refine .left (hd1.itemsL m2) fun id ⟨hid, k4⟩ => ?_
  rw [if_neg (by rw [k1, k2, k3, k4]; simp)]
  refine .left (hF.sel0 h0) fun x0 hx0 => ?_
  have hsc := PyRep.scanFwd (S := fun (r : Tens K × Tens K) (r' : (Fin n → K) × (Fin n → K)) => r.1.IsV r'.1 ∧ r.2.IsV r'.2)
    (body := tensPrCoarseFwBody p u_zoh (P.T / (blocks : K))) (body' := P.tfPrCoarseFwBody u_zoh (P.T / (blocks : K)))
    (fun c c' x x' hc hx => prCoarseFwBody_rep hp u_zoh _ hc.1 hx.1 hx.2.1.1 hx.2.1.2 hx.2.2.1 hx.2.2.2)
    (forall₂_zips (forall₂_eq_self (tfPrCoarseTimes blocks (P.T / (blocks : K)))) (forall₂_zips (forall₂_zips hiF hiG) (forall₂_zips hiK hid)))
    (i := (x0, x0)) (i' := (_, _)) ⟨hx0, hx0⟩
  refine PyRep.bind (hsc.with fun r r' e h => And.intro (tfScanFwdM_len e) h) fun r r' hr => ?_
  obtain ⟨hl, hr⟩ := hr
  have hl : r'.length = blocks := by rw [hl]; simp [tfPrCoarseTimes, l3, l4, m1, m2]
  refine .left (stackT isV_rel hx0 (forall₂_maps hr fun a b h => h.1)) fun x1 hx1 => ?_
  refine .left (stackT isV_rel hx0 (forall₂_maps hr fun a b h => h.2)) fun x2 hx2 => ?_
  refine .left (hx1.consItem isV_rel hx0) fun x3 hx3 => ?_
  refine .left (hx2.consItem isV_rel hx0) fun x4 hx4 => ?_
  exact .ok ⟨⟨by simp [hl], hx3⟩, ⟨by simp [hl], hx4⟩⟩

theorem prFinalFw_rep (hp : p.Holds P) (u_zoh : Bool) {blocks steps : ℕ} (hB : 0 < blocks) {xs Kxs ds : Tens K} {xl : List (Fin n → K)}
    {Kl : List (Matrix (Fin m) (Fin n) K)} {dl : List (Fin m → K)} (hx : xs.BatN (blocks + 1) [n] (fun t A => t.IsV A) xl) (hK : Kxs.HoldsM Kl)
    (hd : ds.HoldsV dl) (l1 : Kl.length = blocks * steps) (l2 : dl.length = blocks * steps) :
    PyRep (fun t r => t.1.HoldsV r.1 ∧ t.2.HoldsV r.2) (tensPrFinalForward p u_zoh steps P.T xs Kxs ds) (P.tfPrFinalForward steps xl Kl dl u_zoh) := by
  obtain ⟨l0, hx⟩ := hx
  unfold tensPrFinalForward CLQT.tfPrFinalForward tfReshape
  refine .left ⟨_, hx.size0R, rfl⟩ fun _ h => ?_
  subst h
  dsimp only
  rw [l0, Nat.add_sub_cancel, if_pos l1, if_pos l2]
  refine PyRep.right (PyRep.right ?_)
  refine .left (splitM_rep hK l1) fun Kt hKt => ?_
  refine .left (splitV_rep hd l2) fun dt hdt => ?_
  refine .left hx.init fun xi hxi => ?_
  refine PyRep.bind (prBatchFw_rep hp u_zoh _ hB hxi hKt hdt (by simp [l0]) (by simp) (by simp)) fun r rs hr => ?_
  obtain ⟨⟨hxs, hus⟩, hl⟩ := hr
  obtain ⟨xs, us⟩ := r
  dsimp only at hxs hus ⊢
  have ne : rs ≠ [] := by intro h0; rw [h0] at hl; simp at hl; omega
  refine PyRep.rightEq (pyLast_ne ne) ?_
  refine .left (hxs.lastR (by simpa using ne)) fun x1 hx1 => ?_
  rw [List.getLast_map] at hx1
  refine PyRep.bind (hx1.2.ends true) fun xT xT' hxT => ?_
  refine .left hxs.init1 fun x2 hx2 => ?_
  refine .left (hx2.merge isV_rel) fun x3 hx3 => ?_
  refine .left (hx3.pushItem isV_rel hxT) fun x4 hx4 => ?_
  refine .left (hus.merge isV_rel) fun us1 hus1 => ?_
  rw [List.map_map] at hx4
  exact .ok ⟨hx4.holdsV, hus1.holdsV⟩

theorem prForward_rep [LinearOrder K] (hp : p.Holds P) (u_zoh : Bool) {blocks steps : ℕ} (hB : 0 < blocks) (hs : 0 < steps) (niter : ℕ) {x0 Kxs ds : Tens K}
    {x0' : Fin n → K} {Kl : List (Matrix (Fin m) (Fin n) K)} {dl : List (Fin m → K)} (hx : x0.IsV x0') (hK : Kxs.HoldsM Kl) (hd : ds.HoldsV dl)
    (l1 : Kl.length = blocks * steps) (l2 : dl.length = blocks * steps) :
    PyRep (fun t r => t.1.HoldsV r.1 ∧ t.2.HoldsV r.2) (tensPrForward p blocks steps niter x0 P.T Kxs ds u_zoh)
      (P.tfPrForward blocks steps niter x0' Kl dl u_zoh) := by
  unfold tensPrForward CLQT.tfPrForward
  refine PyRep.bind (prInitFw_rep hp u_zoh hs hx hK hd l1 l2) fun c c' hc => ?_
  have hsc := PyRep.scanFwd (R := (· = ·)) (S := fun (r : Tens K × Tens K) (r' : List (Fin n → K) × List (Fin n → K)) =>
      Tens.BatN (blocks + 1) [n] (fun t (A : Fin n → K) => t.IsV A) r.1 r'.1 ∧ Tens.BatN (blocks + 1) [n] (fun t (A : Fin n → K) => t.IsV A) r.2 r'.2)
    (body := fun c (_ : ℕ) => tensPrFwBody p u_zoh steps P.T Kxs ds c) (body' := fun c (_ : ℕ) => P.tfPrFwBody steps Kl dl u_zoh c)
    (fun c c' x x' hc _ => by
      unfold tensPrFwBody CLQT.tfPrFwBody
      exact (prDenseFw_rep hp u_zoh hB hc.1 hK hd l1 l2).bind fun F F' hF => prCoarseFw_rep hp u_zoh hs hF hc.2 hK hd l1 l2)
    (forall₂_eq_self (List.range niter)) (i := (c, c)) (i' := (c', c')) ⟨hc, hc⟩
  refine PyRep.bind hsc fun r r' hr => ?_
  refine .left (stackT (isV_rel.bat (blocks + 1)) hc (forall₂_maps hr fun a b h => h.1)) fun x1 hx1 => ?_
  refine .left (stackT (isV_rel.bat (blocks + 1)) hc (forall₂_maps hr fun a b h => h.2)) fun x2 hx2 => ?_
  cases r' with
  | nil =>
    obtain ⟨e, he⟩ := hx1.last_fail rfl
    exact ⟨e, by rw [he]; rfl⟩
  | cons a r' =>
    refine PyRep.rightEq (pyLast_ne (by simp)) ?_
    refine .left (hx1.lastR (by simp)) fun x3 hx3 => ?_
    rw [List.getLast_map] at hx3
    exact prFinalFw_rep hp u_zoh hB hx3 hK hd l1 l2

end Forward

section Ordered
variable [LinearOrder K] {p : TensCLQT K} {P : CLQT n m K}

/-! ### Forward-backward pass -/

theorem prInitAbc_rep (hp : p.Holds P) (blocks : ℕ) {x0 : Tens K} {x0' : Fin n → K} (hx : x0.IsV x0') :
    PyRep (AbcPassRep blocks) (tensPrInitFwdBwd p blocks x0 P.T) (P.tfPrInitFwdBwd blocks x0') := by
  unfold tensPrInitFwdBwd CLQT.tfPrInitFwdBwd tensClqtSeqFwdBwdDefaults
  refine .left (P := fun e => e.1 = P.T / (blocks : K) ∧ e.2.1 = 0 ∧ AbcRep e.2.2 ((0 : Matrix (Fin n) (Fin n) K), x0', (0 : Matrix (Fin n) (Fin n) K)))
    ⟨_, bstep hx.size0 (bstep hx.size0 rfl), rfl, rfl, constM_zero n n, hx, (constM_zero n n).zeroM⟩ fun e he => ?_
  obtain ⟨dt, t0, e⟩ := e
  obtain ⟨h1, h2, h3⟩ := he
  dsimp only at h1 h2 h3
  subst h1 h2
  exact abcPass_rep hp blocks _ _ h3

/-- The passes over all blocks. -/
theorem prBatchAbc_rep (hp : p.Holds P) (steps : ℕ) (dt : K) {blocks : ℕ} (hB : 0 < blocks) {te : TensAbc K} {A C : List (Matrix (Fin n) (Fin n) K)}
    {b : List (Fin n → K)} (hA : te.A.Bat [n, n] (fun t (A : Matrix (Fin n) (Fin n) K) => t.IsM A) A) (hb : te.b.Bat [n] (fun t A => t.IsV A) b)
    (hC : te.C.Bat [n, n] (fun t (A : Matrix (Fin n) (Fin n) K) => t.IsM A) C) (l1 : A.length = blocks) (l2 : b.length = blocks) (l3 : C.length = blocks) :
    PyRep (fun t rs => AbcsRep steps t rs ∧ rs.length = blocks) (tensAbcBatch p steps dt (tensPrTimes blocks steps dt) te)
      (((tfPrTimes blocks steps dt).zip (A.zip (b.zip C))).mapM fun a => P.tfSeqFwdBwd steps dt a.1 a.2.1 a.2.2.1 a.2.2.2) := by
  have hbl := tfPrTimes_length blocks steps dt
  have e1 : ((A.zip (b.zip C)).map fun a => (⟨a.1, a.2.1, a.2.2, 0, 0⟩ : Elem n K)).map (·.A) = A := by
    rw [List.map_map]
    exact List.map_fst_zip (by simp [l1, l2, l3])
  have e2 : ((A.zip (b.zip C)).map fun a => (⟨a.1, a.2.1, a.2.2, 0, 0⟩ : Elem n K)).map (·.b) = b := by
    rw [List.map_map, show ((fun e : Elem n K => e.b) ∘ fun a : Matrix (Fin n) (Fin n) K × (Fin n → K) × Matrix (Fin n) (Fin n) K =>
      (⟨a.1, a.2.1, a.2.2, 0, 0⟩ : Elem n K)) = Prod.fst ∘ Prod.snd from rfl, ← List.map_map, List.map_snd_zip (by simp [l1, l2, l3]),
      List.map_fst_zip (by simp [l2, l3])]
  have e3 : ((A.zip (b.zip C)).map fun a => (⟨a.1, a.2.1, a.2.2, 0, 0⟩ : Elem n K)).map (·.C) = C := by
    rw [List.map_map, show ((fun e : Elem n K => e.C) ∘ fun a : Matrix (Fin n) (Fin n) K × (Fin n → K) × Matrix (Fin n) (Fin n) K =>
      (⟨a.1, a.2.1, a.2.2, 0, 0⟩ : Elem n K)) = Prod.snd ∘ Prod.snd from rfl, ← List.map_map, List.map_snd_zip (by simp [l1, l2, l3]),
      List.map_snd_zip (by simp [l2, l3])]
  have h := abcBatch_rep hp steps dt (t0 := tfPrTimes blocks steps dt) (te := te)
    (el := (A.zip (b.zip C)).map fun a => (⟨a.1, a.2.1, a.2.2, 0, 0⟩ : Elem n K)) (by rw [e1]; exact hA) (by rw [e2]; exact hb) (by rw [e3]; exact hC)
    (by rw [hbl]; simp [l1, l2, l3]) (by intro h0; rw [h0] at hbl; simp at hbl; omega)
  rw [hbl, List.zip_map_right, mapM_maps] at h
  exact h

theorem prDenseAbc_rep (hp : p.Holds P) (steps : ℕ) {blocks : ℕ} (hB : 0 < blocks) {c : TensAbc K} {c' : AbcResult n K} (h : AbcPassRep blocks c c') :
    PyRep (AbcPassRep blocks) (tensPrDenseFwdBwd p steps P.T c) (P.tfPrDenseFwdBwd steps c') := by
  obtain ⟨⟨l1, hA⟩, ⟨l2, hb⟩, ⟨l3, hC⟩⟩ := h
  unfold tensPrDenseFwdBwd CLQT.tfPrDenseFwdBwd
  refine .left ⟨_, hA.size0R, rfl⟩ fun _ h => ?_
  subst h
  dsimp only
  rw [l1, Nat.add_sub_cancel]
  refine .left hA.init fun A1 hA1 => ?_
  refine .left hb.init fun b1 hb1 => ?_
  refine .left hC.init fun C1 hC1 => ?_
  refine PyRep.bind (prBatchAbc_rep hp steps _ hB (te := ⟨A1, b1, C1⟩) hA1 hb1 hC1 (by simp [l1]) (by simp [l2]) (by simp [l3])) fun r rs hr => ?_
  obtain ⟨hr, hl⟩ := hr
  obtain ⟨A2, L1, e1, f1, hA2⟩ := hr.A.last1
  obtain ⟨b2, L2, e2, f2, hb2⟩ := hr.b.last1
  obtain ⟨C2, L3, e3, f3, hC2⟩ := hr.C.last1
  have k1 := (mapM_ok_iff.1 f1).length_eq
  have k2 := (mapM_ok_iff.1 f2).length_eq
  have k3 := (mapM_ok_iff.1 f3).length_eq
  rw [List.length_map, hl] at k1 k2 k3
  rw [mapM_maps] at f1 f2 f3
  refine PyRep.rightEq f1 (PyRep.rightEq f2 (PyRep.rightEq f3 ?_))
  refine .left ⟨_, e1, rfl⟩ fun _ h => ?_
  subst h
  refine .left ⟨_, e2, rfl⟩ fun _ h => ?_
  subst h
  refine .left ⟨_, e3, rfl⟩ fun _ h => ?_
  subst h
  have h1 : 0 < c'.A_list.length := by omega
  have h2 : 0 < c'.b_list.length := by omega
  have h3 : 0 < c'.C_list.length := by omega
  refine PyRep.rightEq (pyGet_lt h1) (PyRep.rightEq (pyGet_lt h2) (PyRep.rightEq (pyGet_lt h3) ?_))
  refine .left (hA.sel0 h1) fun A3 hA3 => ?_
  refine .left (hA2.consItem isM_rel hA3) fun A4 hA4 => ?_
  refine .left (hb.sel0 h2) fun b3 hb3 => ?_
  refine .left (hb2.consItem isV_rel hb3) fun b4 hb4 => ?_
  refine .left (hC.sel0 h3) fun C3 hC3 => ?_
  refine .left (hC2.consItem isM_rel hC3) fun C4 hC4 => ?_
  exact .ok ⟨⟨by simp [← k1], hA4⟩, ⟨by simp [← k2], hb4⟩, ⟨by simp [← k3], hC4⟩⟩

theorem prCoarseAbcBody_rep (hp : p.Holds P) (dt : K) {c : TensAbc K × TensAbc K}
    {c' : (Matrix (Fin n) (Fin n) K × (Fin n → K) × Matrix (Fin n) (Fin n) K) × (Matrix (Fin n) (Fin n) K × (Fin n → K) × Matrix (Fin n) (Fin n) K)}
    (hc : AbcRep c.1 c'.1) {i : K × TensAbc K × TensAbc K}
    {i' : K × (Matrix (Fin n) (Fin n) K × (Fin n → K) × Matrix (Fin n) (Fin n) K) × (Matrix (Fin n) (Fin n) K × (Fin n → K) × Matrix (Fin n) (Fin n) K)}
    (h0 : i.1 = i'.1) (hF : AbcRep i.2.1 i'.2.1) (hG : AbcRep i.2.2 i'.2.2) :
    PyRep (fun r r' => AbcRep r.1 r'.1 ∧ AbcRep r.2 r'.2) (tensPrCoarseAbcBody p dt c i) (P.tfPrCoarseAbcBody dt c' i') := by
  obtain ⟨t, F, G⟩ := i
  obtain ⟨t', ⟨AF, bF, CF⟩, ⟨AG, bG, CG⟩⟩ := i'
  dsimp only at h0
  subst h0
  unfold tensPrCoarseAbcBody CLQT.tfPrCoarseAbcBody
  dsimp only
  refine PyRep.bind (abcPass_rep hp 1 dt t hc) fun r r' hr => ?_
  refine PyRep.bind (hr.A.2.ends true) fun A A' hA => ?_
  refine PyRep.bind (hr.b.2.ends true) fun b b' hb => ?_
  refine PyRep.bind (hr.C.2.ends true) fun C C' hC => ?_
  refine .left (hA.correct hF.A hG.A) fun A1 hA1 => ?_
  refine .left (hb.correct hF.b hG.b) fun b1 hb1 => ?_
  refine .left (hC.correct hF.C hG.C) fun C1 hC1 => ?_
  exact .ok ⟨⟨hA1, hb1, hC1⟩, ⟨hA, hb, hC⟩⟩

omit [Field K] [LinearOrder K] in
theorem tailItems_rep {blocks : ℕ} {c : TensAbc K} {c' : AbcResult n K} (h : AbcPassRep blocks c c') :
    ∃ ts, c.tailItems blocks = .ok ts ∧ List.Forall₂ AbcRep ts (c'.A_list.tail.zip (c'.b_list.tail.zip c'.C_list.tail)) := by
  obtain ⟨⟨l1, hA⟩, ⟨l2, hb⟩, ⟨l3, hC⟩⟩ := h
  obtain ⟨A1, e1, hA⟩ := hA.tail
  obtain ⟨A2, e2, hA, k1⟩ := hA.itemsL (N := blocks) (by simp [l1])
  obtain ⟨b1, e3, hb⟩ := hb.tail
  obtain ⟨b2, e4, hb, k2⟩ := hb.itemsL (N := blocks) (by simp [l2])
  obtain ⟨C1, e5, hC⟩ := hC.tail
  obtain ⟨C2, e6, hC, k3⟩ := hC.itemsL (N := blocks) (by simp [l3])
  refine ⟨_, bstep e1 (bstep e2 (bstep e3 (bstep e4 (bstep e5 (bstep e6 (Eq.trans (if_neg (by rw [k1, k2, k3]; simp)) rfl)))))), ?_⟩
  rw [List.forall₂_map_left_iff]
  exact (forall₂_zips hA (forall₂_zips hb hC)).imp fun a b h => ⟨h.1, h.2.1, h.2.2⟩

theorem prCoarseAbc_rep (hp : p.Holds P) {blocks : ℕ} {F G : TensAbc K} {F' G' : AbcResult n K} (hF : AbcPassRep blocks F F') (hG : AbcPassRep blocks G G') :
    PyRep (fun r r' => AbcPassRep blocks r.1 r'.1 ∧ AbcPassRep blocks r.2 r'.2) (tensPrCoarseFwdBwd p P.T F G) (P.tfPrCoarseFwdBwd F' G') := by
  obtain ⟨iF, eF, hiF⟩ := tailItems_rep hF
  obtain ⟨iG, eG, hiG⟩ := tailItems_rep hG
  obtain ⟨⟨l1, hA⟩, ⟨l2, hb⟩, ⟨l3, hC⟩⟩ := hF
  obtain ⟨⟨l4, -⟩, ⟨l5, -⟩, ⟨l6, -⟩⟩ := hG
  unfold tensPrCoarseFwdBwd CLQT.tfPrCoarseFwdBwd
  refine .left ⟨_, hA.size0R, rfl⟩ fun _ h => ?_
  subst h
  dsimp only
  rw [l1, Nat.add_sub_cancel]
  have h1 : 0 < F'.A_list.length := by omega
  have h2 : 0 < F'.b_list.length := by omega
  have h3 : 0 < F'.C_list.length := by omega
  refine PyRep.rightEq (pyGet_lt h1) (PyRep.rightEq (pyGet_lt h2) (PyRep.rightEq (pyGet_lt h3) ?_))
  refine .left (hA.sel0 h1) fun A0 hA0 => ?_
  refine .left (hb.sel0 h2) fun b0 hb0 => ?_
  refine .left (hC.sel0 h3) fun C0 hC0 => ?_
  refine .left ⟨_, eF, rfl⟩ fun _ h => ?_
  subst h
  refine .left ⟨_, eG, rfl⟩ fun _ h => ?_
  subst h
  have hsc := PyRep.scanFwd (S := fun (r : TensAbc K × TensAbc K)
      (r' : (Matrix (Fin n) (Fin n) K × (Fin n → K) × Matrix (Fin n) (Fin n) K) × (Matrix (Fin n) (Fin n) K × (Fin n → K) × Matrix (Fin n) (Fin n) K)) =>
      AbcRep r.1 r'.1 ∧ AbcRep r.2 r'.2)
    (body := tensPrCoarseAbcBody p (P.T / (blocks : K))) (body' := P.tfPrCoarseAbcBody (P.T / (blocks : K)))
    (fun c c' x x' hc hx => prCoarseAbcBody_rep hp _ hc.1 hx.1 hx.2.1 hx.2.2)
    (forall₂_zips (forall₂_eq_self (tfPrCoarseTimes blocks (P.T / (blocks : K)))) (forall₂_zips hiF hiG))
    (i := (⟨A0, b0, C0⟩, ⟨A0, b0, C0⟩)) (i' := ((_, _, _), (_, _, _))) ⟨⟨hA0, hb0, hC0⟩, ⟨hA0, hb0, hC0⟩⟩
  refine PyRep.bind (hsc.with fun r r' e h => And.intro (tfScanFwdM_len e) h) fun r r' hr => ?_
  obtain ⟨hl, hr⟩ := hr
  have hl : r'.length = blocks := by rw [hl]; simp [tfPrCoarseTimes, l1, l2, l3, l4, l5, l6]
  refine .left (stackT isM_rel hA0 (forall₂_maps hr fun a b h => h.1.A)) fun A1 hA1 => ?_
  refine .left (stackT isV_rel hb0 (forall₂_maps hr fun a b h => h.1.b)) fun b1 hb1 => ?_
  refine .left (stackT isM_rel hC0 (forall₂_maps hr fun a b h => h.1.C)) fun C1 hC1 => ?_
  refine .left (stackT isM_rel hA0 (forall₂_maps hr fun a b h => h.2.A)) fun A2 hA2 => ?_
  refine .left (stackT isV_rel hb0 (forall₂_maps hr fun a b h => h.2.b)) fun b2 hb2 => ?_
  refine .left (stackT isM_rel hC0 (forall₂_maps hr fun a b h => h.2.C)) fun C2 hC2 => ?_
  refine .left (hA1.consItem isM_rel hA0) fun A1 hA1 => ?_
  refine .left (hb1.consItem isV_rel hb0) fun b1 hb1 => ?_
  refine .left (hC1.consItem isM_rel hC0) fun C1 hC1 => ?_
  refine .left (hA2.consItem isM_rel hA0) fun A2 hA2 => ?_
  refine .left (hb2.consItem isV_rel hb0) fun b2 hb2 => ?_
  refine .left (hC2.consItem isM_rel hC0) fun C2 hC2 => ?_
  exact .ok ⟨⟨⟨by simp [hl], hA1⟩, ⟨by simp [hl], hb1⟩, ⟨by simp [hl], hC1⟩⟩, ⟨⟨by simp [hl], hA2⟩, ⟨by simp [hl], hb2⟩, ⟨by simp [hl], hC2⟩⟩⟩

theorem prFinalAbc_rep (hp : p.Holds P) (steps : ℕ) {blocks : ℕ} (hB : 0 < blocks) {c : TensAbc K} {c' : AbcResult n K} (h : AbcPassRep blocks c c') :
    PyRep (AbcPassRep (blocks * steps)) (tensPrFinalFwdBwd p steps P.T c) (P.tfPrFinalFwdBwd steps c') := by
  obtain ⟨⟨l1, hA⟩, ⟨l2, hb⟩, ⟨l3, hC⟩⟩ := h
  unfold tensPrFinalFwdBwd CLQT.tfPrFinalFwdBwd
  refine .left ⟨_, hA.size0R, rfl⟩ fun _ h => ?_
  subst h
  dsimp only
  rw [l1, Nat.add_sub_cancel]
  refine .left hA.init fun A1 hA1 => ?_
  refine .left hb.init fun b1 hb1 => ?_
  refine .left hC.init fun C1 hC1 => ?_
  refine PyRep.bind (prBatchAbc_rep hp steps _ hB (te := ⟨A1, b1, C1⟩) hA1 hb1 hC1 (by simp [l1]) (by simp [l2]) (by simp [l3])) fun r rs hr => ?_
  obtain ⟨hr, hl⟩ := hr
  have ne : rs ≠ [] := by intro h0; rw [h0] at hl; simp at hl; omega
  refine PyRep.rightEq (pyLast_ne ne) ?_
  refine .left (hr.A.lastR (by simpa using ne)) fun A2 hA2 => ?_
  rw [List.getLast_map] at hA2
  refine PyRep.bind (hA2.2.ends true) fun AT AT' hAT => ?_
  refine .left (hr.b.lastR (by simpa using ne)) fun b2 hb2 => ?_
  rw [List.getLast_map] at hb2
  refine PyRep.bind (hb2.2.ends true) fun bT bT' hbT => ?_
  refine .left (hr.C.lastR (by simpa using ne)) fun C2 hC2 => ?_
  rw [List.getLast_map] at hC2
  refine PyRep.bind (hC2.2.ends true) fun CT CT' hCT => ?_
  refine .left hr.A.init1 fun A3 hA3 => ?_
  refine .left hr.b.init1 fun b3 hb3 => ?_
  refine .left hr.C.init1 fun C3 hC3 => ?_
  have k1 := flattenN_len hA3.lens
  have k2 := flattenN_len hb3.lens
  have k3 := flattenN_len hC3.lens
  simp only [List.length_map, hl] at k1 k2 k3
  rw [List.map_map] at k1 k2 k3
  refine .left (hA3.merge isM_rel) fun A4 hA4 => ?_
  refine .left (hb3.merge isV_rel) fun b4 hb4 => ?_
  refine .left (hC3.merge isM_rel) fun C4 hC4 => ?_
  refine .left (hA4.pushItem isM_rel hAT) fun A5 hA5 => ?_
  refine .left (hb4.pushItem isV_rel hbT) fun b5 hb5 => ?_
  refine .left (hC4.pushItem isM_rel hCT) fun C5 hC5 => ?_
  rw [List.map_map] at hA5 hb5 hC5
  exact .ok ⟨⟨by rw [List.length_append]; exact congrArg (· + 1) k1, hA5⟩, ⟨by rw [List.length_append]; exact congrArg (· + 1) k2, hb5⟩,
    ⟨by rw [List.length_append]; exact congrArg (· + 1) k3, hC5⟩⟩

theorem prFwdBwd_rep (hp : p.Holds P) {blocks : ℕ} (hB : 0 < blocks) (steps niter : ℕ) {x0 : Tens K} {x0' : Fin n → K} (hx : x0.IsV x0') :
    PyRep (AbcPassRep (blocks * steps)) (tensPrFwdBwd p blocks steps niter x0 P.T) (P.tfPrFwdBwd blocks steps niter x0') := by
  unfold tensPrFwdBwd CLQT.tfPrFwdBwd
  refine PyRep.bind (prInitAbc_rep hp blocks hx) fun c c' hc => ?_
  have hsc := PyRep.scanFwd (R := (· = ·)) (S := fun (r : TensAbc K × TensAbc K) (r' : AbcResult n K × AbcResult n K) =>
      AbcPassRep blocks r.1 r'.1 ∧ AbcPassRep blocks r.2 r'.2)
    (body := fun c (_ : ℕ) => tensPrAbcBody p steps P.T c) (body' := fun c (_ : ℕ) => P.tfPrAbcBody steps c)
    (fun c c' x x' hc _ => by
      unfold tensPrAbcBody CLQT.tfPrAbcBody
      exact (prDenseAbc_rep hp steps hB hc.1).bind fun F F' hF => prCoarseAbc_rep hp hF hc.2)
    (forall₂_eq_self (List.range niter)) (i := (c, c)) (i' := (c', c')) ⟨hc, hc⟩
  refine PyRep.bind hsc fun r r' hr => ?_
  refine .left (stackT (isM_rel.bat (blocks + 1)) hc.A (forall₂_maps hr fun a b h => h.1.A)) fun A1 hA1 => ?_
  refine .left (stackT (isV_rel.bat (blocks + 1)) hc.b (forall₂_maps hr fun a b h => h.1.b)) fun b1 hb1 => ?_
  refine .left (stackT (isM_rel.bat (blocks + 1)) hc.C (forall₂_maps hr fun a b h => h.1.C)) fun C1 hC1 => ?_
  refine .left (stackT (isM_rel.bat (blocks + 1)) hc.A (forall₂_maps hr fun a b h => h.2.A)) fun A2 hA2 => ?_
  refine .left (stackT (isV_rel.bat (blocks + 1)) hc.b (forall₂_maps hr fun a b h => h.2.b)) fun b2 hb2 => ?_
  refine .left (stackT (isM_rel.bat (blocks + 1)) hc.C (forall₂_maps hr fun a b h => h.2.C)) fun C2 hC2 => ?_
  cases r' with
  | nil =>
    obtain ⟨e, he⟩ := hA1.last_fail rfl
    exact ⟨e, by rw [he]; rfl⟩
  | cons a r' =>
    refine PyRep.rightEq (pyLast_ne (by simp)) ?_
    refine .left (hA1.lastR (by simp)) fun A3 hA3 => ?_
    refine .left (hb1.lastR (by simp)) fun b3 hb3 => ?_
    refine .left (hC1.lastR (by simp)) fun C3 hC3 => ?_
    rw [List.getLast_map] at hA3 hb3 hC3
    exact prFinalAbc_rep hp steps hB ⟨hA3, hb3, hC3⟩

/-! ### Pipelines -/

theorem prBackwardForward_rep (hp : p.Holds P) {d : TensFinal K} (hd : d.Holds P) {blocks steps : ℕ} (hB : 0 < blocks) (hs : 0 < steps) (niter : ℕ)
    {x0 : Tens K} {x0' : Fin n → K} (hx : x0.IsV x0') :
    PyRep (fun t r => t.1.HoldsV r.1 ∧ t.2.HoldsV r.2) (tensPrBackwardForward p d blocks steps niter x0) (P.tfPrBackwardForward blocks steps niter x0') := by
  unfold tensPrBackwardForward CLQT.tfPrBackwardForward
  rw [hd.T]
  exact (prBackward_rep hp hd hB steps niter).bind fun r r' hr =>
    prForward_rep hp false hB hs niter hx hr.Kxs.2.holdsM hr.ds.2.holdsV hr.Kxs.1 hr.ds.1

theorem prBackwardBwdFwd_rep (hp : p.Holds P) {d : TensFinal K} (hd : d.Holds P) {blocks steps : ℕ} (hB : 0 < blocks) (niter : ℕ)
    {x0 : Tens K} {x0' : Fin n → K} (hx : x0.IsV x0') :
    PyRep (fun t r => t.1.HoldsV r.1 ∧ t.2.HoldsV r.2) (tensPrBackwardBwdFwd p d blocks steps niter x0) (P.tfPrBackwardBwdFwd blocks steps niter x0') := by
  unfold tensPrBackwardBwdFwd CLQT.tfPrBackwardBwdFwd
  rw [hd.T]
  exact (prBackward_rep hp hd hB steps niter).bind fun r r' hr => (prFwdBwd_rep hp hB steps niter hx).bind fun e e' he =>
    clqtCombine_rep hr.Ss.2.holdsM hr.vs.2.holdsV hr.Kxs.2.holdsM hr.ds.2.holdsV he.b.2.holdsV he.C.2.holdsM hr.Ss.1 hr.vs.1 hr.Kxs.1 hr.ds.1 he.b.1 he.C.1

end Ordered

end Verif
