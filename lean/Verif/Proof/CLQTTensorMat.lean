import Verif.Proof.CLQTTensorOps
import Verif.Props.TensorCLQT
import Verif.Model.CLQTTF

/-! The right-hand sides and the bodies of `clqt_tf.py` on tensors. -/

namespace Verif

open Matrix

variable {n m : ℕ} {K : Type} [Field K]

/-! ### Matrices and vectors -/

theorem Tens.IsM.negM {a b : ℕ} {t : Tens K} {A : Matrix (Fin a) (Fin b) K} (h : t.IsM A) : (t.map (- ·)).IsM (-A) :=
  ⟨h.1, fun i j => congrArg (- ·) (h.2 i j)⟩

theorem Tens.IsM.smulM {a b : ℕ} {t : Tens K} {A : Matrix (Fin a) (Fin b) K} (h : t.IsM A) (c : K) : (t.map (c * ·)).IsM (c • A) :=
  ⟨h.1, fun i j => congrArg (c * ·) (h.2 i j)⟩

theorem Tens.IsV.smulV {a : ℕ} {t : Tens K} {A : Fin a → K} (h : t.IsV A) (c : K) : (t.map (c * ·)).IsV (c • A) :=
  ⟨h.1, fun i => congrArg (c * ·) (h.2 i)⟩

theorem Tens.IsM.mulR {a b : ℕ} {t : Tens K} {A : Matrix (Fin a) (Fin b) K} (h : t.IsM A) (c : K) : (t.map (· * c)).IsM (c • A) :=
  ⟨h.1, fun i j => (congrArg (· * c) (h.2 i j)).trans (mul_comm _ _)⟩

theorem Tens.IsV.mulR {a : ℕ} {t : Tens K} {A : Fin a → K} (h : t.IsV A) (c : K) : (t.map (· * c)).IsV (c • A) :=
  ⟨h.1, fun i => (congrArg (· * c) (h.2 i)).trans (mul_comm _ _)⟩

omit [Field K] in
theorem Tens.IsM.rows {a b : ℕ} {t : Tens K} {A : Matrix (Fin a) (Fin b) K} (h : t.IsM A) : t.size (-2) = .ok a := by
  rw [Tens.size, h.1]; rfl

omit [Field K] in
theorem Tens.IsM.cols {a b : ℕ} {t : Tens K} {A : Matrix (Fin a) (Fin b) K} (h : t.IsM A) : t.size (-1) = .ok b := by
  rw [Tens.size, h.1]; rfl

omit [Field K] in
theorem Tens.IsM.size0 {a b : ℕ} {t : Tens K} {A : Matrix (Fin a) (Fin b) K} (h : t.IsM A) : t.size 0 = .ok a := by
  rw [Tens.size, h.1]; rfl

omit [Field K] in
theorem Tens.IsV.size0 {a : ℕ} {t : Tens K} {A : Fin a → K} (h : t.IsV A) : t.size 0 = .ok a := by
  rw [Tens.size, h.1]; rfl

omit [Field K] in
theorem Tens.IsV.sizeL {a : ℕ} {t : Tens K} {A : Fin a → K} (h : t.IsV A) : t.size (-1) = .ok a := by
  rw [Tens.size, h.1]; rfl

theorem eye2_isM (n : ℕ) : (Tens.eye2 n : Tens K).IsM (1 : Matrix (Fin n) (Fin n) K) := by
  refine ⟨rfl, fun i j => ?_⟩
  simp [Tens.eye2, Matrix.one_apply, Fin.ext_iff]

theorem Tens.IsM.zeroM {a b : ℕ} {t : Tens K} {A : Matrix (Fin a) (Fin b) K} (h : t.IsM A) : (t.map fun _ => (0 : K)).IsM (0 : Matrix (Fin a) (Fin b) K) :=
  ⟨h.1, fun _ _ => rfl⟩

theorem Tens.IsV.zeroV {a : ℕ} {t : Tens K} {A : Fin a → K} (h : t.IsV A) : (t.map fun _ => (0 : K)).IsV (0 : Fin a → K) := ⟨h.1, fun _ => rfl⟩

theorem constM_zero (a b : ℕ) : (Tens.const [a, b] (0 : K)).IsM (0 : Matrix (Fin a) (Fin b) K) := ⟨rfl, fun _ _ => rfl⟩

theorem constV_zero (a : ℕ) : (Tens.const [a] (0 : K)).IsV (0 : Fin a → K) := ⟨rfl, fun _ => rfl⟩

theorem Tens.IsM.sym {t : Tens K} {A : Matrix (Fin n) (Fin n) K} (h : t.IsM A) : ∃ r, t.symPart = .ok r ∧ r.IsM ((1 / 2 : K) • (A + Aᵀ)) := by
  obtain ⟨r1, e1, h1⟩ := h.mT
  obtain ⟨r2, e2, h2⟩ := h.add h1
  exact ⟨_, bstep e1 (bstep e2 rfl), h2.smulM _⟩

theorem Tens.IsM.solveT [DecidableEq K] {a b : ℕ} {t t' : Tens K} {A : Matrix (Fin a) (Fin a) K} {B : Matrix (Fin a) (Fin b) K} (h : t.IsM A)
    (h' : t'.IsM B) : PyRep (fun (r : Tens K) (X : Matrix (Fin a) (Fin b) K) => r.IsM X) (t.solveT t') (Verif.solve A B) := by
  obtain ⟨s, v⟩ := t
  obtain ⟨s', v'⟩ := t'
  obtain ⟨h1, h2⟩ := h
  obtain ⟨h1', h2'⟩ := h'
  dsimp only at h1 h2 h1' h2'
  subst h1
  subst h1'
  have e : (Matrix.of fun i j : Fin a => v [i.val, j.val]) = A := by ext i j; exact h2 i j
  have e' : (Matrix.of fun (i : Fin a) (j : Fin b) => v' [i.val, j.val]) = B := by ext i j; exact h2' i j
  have key : Tens.solveT ⟨[a, a], v⟩ ⟨[a, b], v'⟩ = (do return matTens (← Verif.solve A B)) := by
    refine Eq.trans (if_pos ⟨rfl, rfl⟩) ?_
    dsimp only
    rw [e, e']
  rw [key]
  cases Verif.solve A B with
  | ok X => exact ⟨_, rfl, matTens_isM X⟩
  | error e => exact ⟨e, rfl⟩

/-! ### Columns -/

omit [Field K] in
theorem Tens.IsM.colsL {a N : ℕ} {t : Tens K} {X : Matrix (Fin a) (Fin N) K} (h : t.IsM X) (lo hi c : ℕ) (hc : hi = lo + c) (hN : lo + c ≤ N) :
    ∃ r, t.slice (-1) lo hi = .ok r ∧ r.IsM (Matrix.of fun (i : Fin a) (j : Fin c) => X i ⟨lo + j.1, by omega⟩) := by
  obtain ⟨s, v⟩ := t
  obtain ⟨h1, h2⟩ := h
  dsimp only at h1 h2
  subst h1
  subst hc
  have hax : tfAxis [a, N].length (-1) = .ok 1 := tfAxis_last (rank := 2) (by simp)
  refine ⟨⟨[a, c], fun i => v (i.set 1 (i.getD 1 0 + lo))⟩, ?_, rfl, fun i j => ?_⟩
  · rw [Tens.slice]
    refine bstep hax ?_
    simp [pure, Except.pure, Nat.min_eq_left hN]
  · have := h2 i ⟨lo + j.1, by omega⟩
    simpa [Nat.add_comm] using this

omit [Field K] in
theorem Tens.IsM.colL {a N : ℕ} {t : Tens K} {X : Matrix (Fin a) (Fin N) K} (h : t.IsM X) (k : ℕ) (hk : k < N) :
    ∃ r, t.select (-1) k = .ok r ∧ r.IsV (fun i : Fin a => X i ⟨k, hk⟩) := by
  obtain ⟨s, v⟩ := t
  obtain ⟨h1, h2⟩ := h
  dsimp only at h1 h2
  subst h1
  have hax : tfAxis [a, N].length (-1) = .ok 1 := tfAxis_last (rank := 2) (by simp)
  refine ⟨⟨[a], fun i => v (i.insertIdx 1 k)⟩, ?_, rfl, fun i => ?_⟩
  · rw [Tens.select]
    refine bstep hax ?_
    exact if_pos hk
  · exact h2 i ⟨k, hk⟩

omit [Field K] in
theorem Tens.IsM.joinC {a b c : ℕ} {t t' : Tens K} {A : Matrix (Fin a) (Fin b) K} {B : Matrix (Fin a) (Fin c) K} (h : t.IsM A) (h' : t'.IsM B) :
    ∃ r, t.concat t' (-1) = .ok r ∧ r.IsM (Matrix.of fun i => Fin.append (A i) (B i)) := by
  obtain ⟨s, v⟩ := t
  obtain ⟨s', v'⟩ := t'
  obtain ⟨h1, h2⟩ := h
  obtain ⟨h1', h2'⟩ := h'
  dsimp only at h1 h2 h1' h2'
  subst h1
  subst h1'
  refine ⟨_, concat_eq (ax := 1) (s := [a, b + c]) (tfAxis_last (rank := 2) (by simp)) rfl rfl, rfl, fun i j => ?_⟩
  refine Fin.addCases (fun j => ?_) (fun j => ?_) j
  · simp only [Matrix.of_apply, Fin.append_left]
    have : (j.castAdd c).val < b := j.2
    simp only [List.getD_cons_succ, List.getD_cons_zero, this, if_true]
    exact h2 i j
  · simp only [Matrix.of_apply, Fin.append_right]
    have : ¬ b + j.val < b := by omega
    simp only [List.getD_cons_succ, List.getD_cons_zero, this, if_false, List.set_cons_succ, List.set_cons_zero, Fin.val_natAdd, Nat.add_sub_cancel_left]
    exact h2' i j

omit [Field K] in
theorem Tens.IsM.castC {a b c : ℕ} {t : Tens K} {A : Matrix (Fin a) (Fin b) K} (h : t.IsM A) (e : c = b) :
    t.IsM (Matrix.of fun (i : Fin a) (j : Fin c) => A i (Fin.cast e j)) := by
  subst e
  exact h

omit [Field K] in
theorem Tens.IsV.colX {a : ℕ} {t : Tens K} {v : Fin a → K} (h : t.IsV v) :
    ∃ r, t.expandDims (-1) = .ok r ∧ r.IsM (fun (i : Fin a) (_ : Fin 1) => v i) := by
  obtain ⟨s, w⟩ := t
  obtain ⟨h1, h2⟩ := h
  dsimp only at h1 h2
  subst h1
  refine ⟨⟨[a, 1], fun i => w (i.eraseIdx 1)⟩, ?_, rfl, fun i j => h2 i⟩
  rw [Tens.expandDims]
  exact bstep (tfAxis_last (rank := 2) (by simp)) rfl

/-! ### Packing -/

omit [Field K] in
theorem packSv_rep {S v : Tens K} {S' : Matrix (Fin n) (Fin n) K} {v' : Fin n → K} (hS : S.IsM S') (hv : v.IsV v') :
    ∃ r, tensPackSv S v = .ok r ∧ r.IsM (packSvTF S' v') := by
  obtain ⟨w, e1, hw⟩ := hv.colX
  obtain ⟨r, e2, hr⟩ := hS.joinC hw
  exact ⟨r, bstep e1 (bstep e2 rfl), hr⟩

omit [Field K] in
theorem unpackSv_rep {x : Tens K} {X : Matrix (Fin n) (Fin (n + 1)) K} (hx : x.IsM X) :
    ∃ r, tensUnpackSv x = .ok r ∧ r.1.IsM (unpackSvTF X).1 ∧ r.2.IsV (unpackSvTF X).2 := by
  obtain ⟨S, e1, hS⟩ := hx.colsL 0 n n (by omega) (by omega)
  obtain ⟨v, e2, hv⟩ := hx.colL n (by omega)
  refine ⟨(S, v), bstep hx.rows (bstep e1 (bstep e2 rfl)), ?_, hv⟩
  refine ⟨hS.1, fun i j => (hS.2 i j).trans ?_⟩
  simp [unpackSvTF]

omit [Field K] in
theorem packAbc_rep {A b C : Tens K} {A' : Matrix (Fin n) (Fin n) K} {b' : Fin n → K} {C' : Matrix (Fin n) (Fin n) K} (hA : A.IsM A') (hb : b.IsV b')
    (hC : C.IsM C') : ∃ r, tensPackAbc ⟨A, b, C⟩ = .ok r ∧ r.IsM (packABCTF A' b' C') := by
  obtain ⟨w, e1, hw⟩ := hb.colX
  obtain ⟨r, e2, hr⟩ := hA.joinC hC
  obtain ⟨q, e3, hq⟩ := hr.joinC hw
  refine ⟨q, bstep e1 (bstep e2 (bstep e3 rfl)), ?_⟩
  exact hq.castC (c := 2 * n + 1) (by omega)

omit [Field K] in
theorem unpackAbc_rep {x : Tens K} {X : Matrix (Fin n) (Fin (2 * n + 1)) K} (hx : x.IsM X) :
    ∃ r, tensUnpackAbc x = .ok r ∧ r.A.IsM (unpackABCTF X).1 ∧ r.b.IsV (unpackABCTF X).2.1 ∧ r.C.IsM (unpackABCTF X).2.2 := by
  obtain ⟨A, e1, hA⟩ := hx.colsL 0 n n (by omega) (by omega)
  obtain ⟨C, e2, hC⟩ := hx.colsL n (2 * n) n (by omega) (by omega)
  obtain ⟨b, e3, hb⟩ := hx.colL (2 * n) (by omega)
  refine ⟨⟨A, b, C⟩, bstep hx.rows (bstep e1 (bstep e2 (bstep e3 rfl))), ?_, hb, hC⟩
  refine ⟨hA.1, fun i j => (hA.2 i j).trans ?_⟩
  simp [unpackABCTF]

/-- The tensors of one element. -/
structure TensElem.One (t : TensElem K) (e : Elem n K) : Prop where
  A : t.A.IsM e.A
  b : t.b.IsV e.b
  C : t.C.IsM e.C
  eta : t.eta.IsV e.eta
  J : t.J.IsM e.J

omit [Field K] in
theorem packAbcej_rep {t : TensElem K} {e : Elem n K} (h : t.One e) : ∃ r, tensPackAbcej t = .ok r ∧ r.IsM (packABCEJTF e) := by
  obtain ⟨w, e1, hw⟩ := h.b.colX
  obtain ⟨z, e2, hz⟩ := h.eta.colX
  obtain ⟨r1, e3, h1⟩ := h.A.joinC h.C
  obtain ⟨r2, e4, h2⟩ := h1.joinC h.J
  obtain ⟨r3, e5, h3⟩ := h2.joinC hw
  obtain ⟨r4, e6, h4⟩ := h3.joinC hz
  refine ⟨r4, bstep e1 (bstep e2 (bstep e3 (bstep e4 (bstep e5 (bstep e6 rfl))))), ?_⟩
  exact h4.castC (c := 3 * n + 2) (by omega)

omit [Field K] in
theorem unpackAbcej_rep {x : Tens K} {X : Matrix (Fin n) (Fin (3 * n + 2)) K} (hx : x.IsM X) :
    ∃ r, tensUnpackAbcej x = .ok r ∧ r.One (unpackABCEJTF X) := by
  obtain ⟨A, e1, hA⟩ := hx.colsL 0 n n (by omega) (by omega)
  obtain ⟨C, e2, hC⟩ := hx.colsL n (2 * n) n (by omega) (by omega)
  obtain ⟨J, e3, hJ⟩ := hx.colsL (2 * n) (3 * n) n (by omega) (by omega)
  obtain ⟨b, e4, hb⟩ := hx.colL (3 * n) (by omega)
  obtain ⟨eta, e5, he⟩ := hx.colL (3 * n + 1) (by omega)
  refine ⟨⟨A, b, C, eta, J⟩, bstep hx.rows (bstep e1 (bstep e2 (bstep e3 (bstep e4 (bstep e5 rfl))))), ?_, hb, hC, he, hJ⟩
  refine ⟨hA.1, fun i j => (hA.2 i j).trans ?_⟩
  simp [unpackABCEJTF]

/-! ### The integrator -/

/-- Relations that are respected by sums and multiples. -/
structure LinRep {X : Type} [AddCommGroup X] [Module K X] (R : Tens K → X → Prop) : Prop where
  add : ∀ {t t' x x'}, R t x → R t' x' → ∃ r, t.bin (· + ·) t' = .ok r ∧ R r (x + x')
  smul : ∀ {t x} (c : K), R t x → R (t.map (c * ·)) (c • x)
  mulR : ∀ {t x} (c : K), R t x → R (t.map (· * c)) (c • x)

theorem linM {a b : ℕ} : LinRep (fun (t : Tens K) (A : Matrix (Fin a) (Fin b) K) => t.IsM A) :=
  ⟨fun h h' => h.add h', fun c h => h.smulM c, fun c h => h.mulR c⟩

theorem linV {a : ℕ} : LinRep (fun (t : Tens K) (A : Fin a → K) => t.IsV A) :=
  ⟨fun h h' => h.add h', fun c h => h.smulV c, fun c h => h.mulR c⟩

theorem rk4_rep {X P : Type} [AddCommGroup X] [Module K X] {R : Tens K → X → Prop} (hR : LinRep R) {f : Tens K → K → Py (Tens K)}
    {g : X → K → P → Py X} {q : P} (hf : ∀ t x s, R t x → PyRep R (f t s) (g x s q)) {t : Tens K} {x : X} (hx : R t x) (h s : K) :
    PyRep R (tensRk4 f h t s) (rk4TF g h x s q) := by
  unfold tensRk4 rk4TF
  refine (hf _ _ _ hx).bind fun k1 y1 h1 => ?_
  refine .left (hR.add hx (hR.smul (1 / 2) (hR.mulR h h1))) fun a1 ha1 => ?_
  refine (hf _ _ _ ha1).bind fun k2 y2 h2 => ?_
  refine .left (hR.add hx (hR.smul (1 / 2) (hR.mulR h h2))) fun a2 ha2 => ?_
  refine (hf _ _ _ ha2).bind fun k3 y3 h3 => ?_
  refine .left (hR.add hx (hR.mulR h h3)) fun a3 ha3 => ?_
  refine (hf _ _ _ ha3).bind fun k4 y4 h4 => ?_
  refine .left (hR.add (hR.mulR h h1) (hR.smul 2 (hR.mulR h h2))) fun b1 hb1 => ?_
  refine .left (hR.add hb1 (hR.smul 2 (hR.mulR h h3))) fun b2 hb2 => ?_
  refine .left (hR.add hb2 (hR.mulR h h4)) fun b3 hb3 => ?_
  exact hR.add hx (hR.smul (1 / 6) hb3)

/-! ### Right-hand sides -/

section Ordered
variable [LinearOrder K] {p : TensCLQT K} {P : CLQT n m K}

theorem riccatiF_rep (hp : p.Holds P) {x : Tens K} {X : Matrix (Fin n) (Fin (n + 1)) K} (t : K) (hx : x.IsM X) :
    PyRep (fun r Y => r.IsM Y) (tensRiccatiF p x t) (P.tfRiccatiF X t ()) := by
  have hu := unpackSv_rep hx
  unfold CLQT.tfRiccatiF tensRiccatiF
  generalize unpackSvTF X = q at hu ⊢
  obtain ⟨S, v⟩ := q
  refine .left hu fun r hr => ?_
  obtain ⟨tS, tv⟩ := r
  obtain ⟨hS, hv⟩ := hr
  dsimp only at hS hv ⊢
  refine .left (hp.L t).mT fun LT hLT => ?_
  refine ((hp.U t).solveT hLT).bind fun W Y hW => ?_
  refine .left ((hp.L t).mm hW) fun LULT hLULT => ?_
  refine .left (hp.F t).mT fun FT hFT => ?_
  refine .left (hFT.mm hS) fun a1 ha1 => ?_
  refine .left (hS.mm (hp.F t)) fun a2 ha2 => ?_
  refine .left (ha1.negM.sub ha2) fun a3 ha3 => ?_
  refine .left (hS.mm hLULT) fun a4 ha4 => ?_
  refine .left (ha4.mm hS) fun a5 ha5 => ?_
  refine .left (ha3.add ha5) fun a6 ha6 => ?_
  refine .left (hp.H t).mT fun HT hHT => ?_
  refine .left (hHT.mm (hp.X t)) fun a7 ha7 => ?_
  refine .left (ha7.mm (hp.H t)) fun a8 ha8 => ?_
  refine .left (ha6.sub ha8) fun dS hdS => ?_
  refine .left (hp.H t).mT fun HT hHT => ?_
  refine .left ((hp.X t).mv (hp.r t)) fun b1 hb1 => ?_
  refine .left (hHT.mv hb1) fun b2 hb2 => ?_
  refine .left (hS.mv (hp.c t)) fun b3 hb3 => ?_
  refine .left (hb2.neg.add hb3) fun b4 hb4 => ?_
  refine .left (hp.F t).mT fun FT hFT => ?_
  refine .left (hFT.mv hv) fun b5 hb5 => ?_
  refine .left (hb4.sub hb5) fun b6 hb6 => ?_
  refine .left (hLULT.mv hv) fun b7 hb7 => ?_
  refine .left (hS.mv hb7) fun b8 hb8 => ?_
  refine .left (hb6.add hb8) fun dv hdv => ?_
  exact packSv_rep hdS hdv

theorem abcF_rep (hp : p.Holds P) {x : Tens K} {X : Matrix (Fin n) (Fin (2 * n + 1)) K} (t : K) (hx : x.IsM X) :
    PyRep (fun r Y => r.IsM Y) (tensAbcF p x t) (P.tfAbcF X t ()) := by
  have hu := unpackAbc_rep hx
  unfold CLQT.tfAbcF tensAbcF
  generalize unpackABCTF X = q at hu ⊢
  obtain ⟨A, b, C⟩ := q
  refine .left hu fun r hr => ?_
  obtain ⟨tA, tb, tC⟩ := r
  obtain ⟨hA, hb, hC⟩ := hr
  dsimp only at hA hb hC ⊢
  refine .left (hp.L t).mT fun LT hLT => ?_
  refine ((hp.U t).solveT hLT).bind fun W Y hW => ?_
  refine .left ((hp.L t).mm hW) fun LULT hLULT => ?_
  refine .left ((hp.F t).mm hA) fun a1 ha1 => ?_
  refine .left (hp.H t).mT fun HT hHT => ?_
  refine .left (hC.mm hHT) fun a2 ha2 => ?_
  refine .left (ha2.mm (hp.X t)) fun a3 ha3 => ?_
  refine .left (ha3.mm (hp.H t)) fun a4 ha4 => ?_
  refine .left (ha4.mm hA) fun a5 ha5 => ?_
  refine .left (ha1.sub ha5) fun dA hdA => ?_
  refine .left ((hp.F t).mv hb) fun b1 hb1 => ?_
  refine .left (hp.H t).mT fun HT hHT => ?_
  refine .left ((hp.X t).mv (hp.r t)) fun b2 hb2 => ?_
  refine .left (hHT.mv hb2) fun b3 hb3 => ?_
  refine .left (hC.mv hb3) fun b4 hb4 => ?_
  refine .left (hb1.add hb4) fun b5 hb5 => ?_
  refine .left (hp.H t).mT fun HT hHT => ?_
  refine .left ((hp.H t).mv hb) fun b6 hb6 => ?_
  refine .left ((hp.X t).mv hb6) fun b7 hb7 => ?_
  refine .left (hHT.mv hb7) fun b8 hb8 => ?_
  refine .left (hC.mv hb8) fun b9 hb9 => ?_
  refine .left (hb5.sub hb9) fun b10 hb10 => ?_
  refine .left (hb10.add (hp.c t)) fun db hdb => ?_
  refine .left ((hp.F t).mm hC) fun c1 hc1 => ?_
  refine .left (hp.H t).mT fun HT hHT => ?_
  refine .left (hC.mm hHT) fun c2 hc2 => ?_
  refine .left (hc2.mm (hp.X t)) fun c3 hc3 => ?_
  refine .left (hc3.mm (hp.H t)) fun c4 hc4 => ?_
  refine .left (hc4.mm hC) fun c5 hc5 => ?_
  refine .left (hc1.sub hc5) fun c6 hc6 => ?_
  refine .left (hp.F t).mT fun FT hFT => ?_
  refine .left (hC.mm hFT) fun c7 hc7 => ?_
  refine .left (hc6.add hc7) fun c8 hc8 => ?_
  refine .left (hc8.add hLULT) fun dC hdC => ?_
  exact packAbc_rep hdA hdb hdC

theorem elemBwF_rep (hp : p.Holds P) {x : Tens K} {X : Matrix (Fin n) (Fin (3 * n + 2)) K} (t : K) (hx : x.IsM X) :
    PyRep (fun r Y => r.IsM Y) (tensElemBwF p x t) (P.tfElemBwF X t ()) := by
  have hu := unpackAbcej_rep hx
  unfold CLQT.tfElemBwF tensElemBwF
  generalize unpackABCEJTF X = q at hu ⊢
  obtain ⟨A, b, C, eta, J⟩ := q
  refine .left hu fun r hr => ?_
  obtain ⟨tA, tb, tC, te, tJ⟩ := r
  obtain ⟨hA, hb, hC, he, hJ⟩ := hr
  dsimp only at hA hb hC he hJ ⊢
  refine .left (hp.L t).mT fun LT hLT => ?_
  refine ((hp.U t).solveT hLT).bind fun W Y hW => ?_
  refine .left ((hp.L t).mm hW) fun LULT hLULT => ?_
  refine .left (hA.mm hLULT) fun a1 ha1 => ?_
  refine .left (ha1.mm hJ) fun a2 ha2 => ?_
  refine .left (hA.mm (hp.F t)) fun a3 ha3 => ?_
  refine .left (ha2.sub ha3) fun dA hdA => ?_
  refine .left (hLULT.mv he) fun b1 hb1 => ?_
  refine .left (hA.mv hb1) fun b2 hb2 => ?_
  refine .left (hA.mv (hp.c t)) fun b3 hb3 => ?_
  refine .left (hb2.neg.sub hb3) fun db hdb => ?_
  refine .left (hA.mm hLULT) fun c1 hc1 => ?_
  refine .left hA.mT fun AT hAT => ?_
  refine .left (hc1.mm hAT) fun dC hdC => ?_
  refine .left (hp.H t).mT fun HT hHT => ?_
  refine .left ((hp.X t).mv (hp.r t)) fun e1 he1 => ?_
  refine .left (hHT.mv he1) fun e2 he2 => ?_
  refine .left (hLULT.mv he) fun e3 he3 => ?_
  refine .left (hJ.mv he3) fun e4 he4 => ?_
  refine .left (he2.neg.add he4) fun e5 he5 => ?_
  refine .left (hp.F t).mT fun FT hFT => ?_
  refine .left (hFT.mv he) fun e6 he6 => ?_
  refine .left (he5.sub he6) fun e7 he7 => ?_
  refine .left (hJ.mv (hp.c t)) fun e8 he8 => ?_
  refine .left (he7.add he8) fun de hde => ?_
  refine .left (hp.H t).mT fun HT hHT => ?_
  refine .left (hHT.mm (hp.X t)) fun j1 hj1 => ?_
  refine .left (hj1.mm (hp.H t)) fun j2 hj2 => ?_
  refine .left (hJ.mm hLULT) fun j3 hj3 => ?_
  refine .left (hj3.mm hJ) fun j4 hj4 => ?_
  refine .left (hj2.negM.add hj4) fun j5 hj5 => ?_
  refine .left (hJ.mm (hp.F t)) fun j6 hj6 => ?_
  refine .left (hj5.sub hj6) fun j7 hj7 => ?_
  refine .left (hp.F t).mT fun FT hFT => ?_
  refine .left (hFT.mm hJ) fun j8 hj8 => ?_
  refine .left (hj7.sub hj8) fun dJ hdJ => ?_
  exact packAbcej_rep ⟨hdA, hdb, hdC.negM, hde, hdJ⟩

theorem elemFwF_rep (hp : p.Holds P) {x : Tens K} {X : Matrix (Fin n) (Fin (3 * n + 2)) K} (t : K) (hx : x.IsM X) :
    PyRep (fun r Y => r.IsM Y) (tensElemFwF p x t) (P.tfElemFwF X t ()) := by
  have hu := unpackAbcej_rep hx
  unfold CLQT.tfElemFwF tensElemFwF
  generalize unpackABCEJTF X = q at hu ⊢
  obtain ⟨A, b, C, eta, J⟩ := q
  refine .left hu fun r hr => ?_
  obtain ⟨tA, tb, tC, te, tJ⟩ := r
  obtain ⟨hA, hb, hC, he, hJ⟩ := hr
  dsimp only at hA hb hC he hJ ⊢
  refine .left (hp.L t).mT fun LT hLT => ?_
  refine ((hp.U t).solveT hLT).bind fun W Y hW => ?_
  refine .left ((hp.L t).mm hW) fun LULT hLULT => ?_
  refine .left ((hp.F t).mm hA) fun a1 ha1 => ?_
  refine .left (hp.H t).mT fun HT hHT => ?_
  refine .left (hC.mm hHT) fun a2 ha2 => ?_
  refine .left (ha2.mm (hp.X t)) fun a3 ha3 => ?_
  refine .left (ha3.mm (hp.H t)) fun a4 ha4 => ?_
  refine .left (ha4.mm hA) fun a5 ha5 => ?_
  refine .left (ha1.sub ha5) fun dA hdA => ?_
  refine .left ((hp.F t).mv hb) fun b1 hb1 => ?_
  refine .left (hp.H t).mT fun HT hHT => ?_
  refine .left ((hp.X t).mv (hp.r t)) fun b2 hb2 => ?_
  refine .left (hHT.mv hb2) fun b3 hb3 => ?_
  refine .left (hC.mv hb3) fun b4 hb4 => ?_
  refine .left (hb1.add hb4) fun b5 hb5 => ?_
  refine .left (hp.H t).mT fun HT hHT => ?_
  refine .left ((hp.H t).mv hb) fun b6 hb6 => ?_
  refine .left ((hp.X t).mv hb6) fun b7 hb7 => ?_
  refine .left (hHT.mv hb7) fun b8 hb8 => ?_
  refine .left (hC.mv hb8) fun b9 hb9 => ?_
  refine .left (hb5.sub hb9) fun b10 hb10 => ?_
  refine .left (hb10.add (hp.c t)) fun db hdb => ?_
  refine .left ((hp.F t).mm hC) fun c1 hc1 => ?_
  refine .left (hp.H t).mT fun HT hHT => ?_
  refine .left (hC.mm hHT) fun c2 hc2 => ?_
  refine .left (hc2.mm (hp.X t)) fun c3 hc3 => ?_
  refine .left (hc3.mm (hp.H t)) fun c4 hc4 => ?_
  refine .left (hc4.mm hC) fun c5 hc5 => ?_
  refine .left (hc1.sub hc5) fun c6 hc6 => ?_
  refine .left (hp.F t).mT fun FT hFT => ?_
  refine .left (hC.mm hFT) fun c7 hc7 => ?_
  refine .left (hc6.add hc7) fun c8 hc8 => ?_
  refine .left (hc8.add hLULT) fun dC hdC => ?_
  refine .left hA.mT fun AT hAT => ?_
  refine .left (hp.H t).mT fun HT hHT => ?_
  refine .left ((hp.X t).mv (hp.r t)) fun e1 he1 => ?_
  refine .left (hHT.mv he1) fun e2 he2 => ?_
  refine .left (hAT.mv he2) fun e3 he3 => ?_
  refine .left hA.mT fun AT hAT => ?_
  refine .left (hp.H t).mT fun HT hHT => ?_
  refine .left ((hp.H t).mv hb) fun e4 he4 => ?_
  refine .left ((hp.X t).mv he4) fun e5 he5 => ?_
  refine .left (hHT.mv he5) fun e6 he6 => ?_
  refine .left (hAT.mv he6) fun e7 he7 => ?_
  refine .left (he3.sub he7) fun de hde => ?_
  refine .left hA.mT fun AT hAT => ?_
  refine .left (hp.H t).mT fun HT hHT => ?_
  refine .left (hAT.mm hHT) fun j1 hj1 => ?_
  refine .left (hj1.mm (hp.X t)) fun j2 hj2 => ?_
  refine .left (hj2.mm (hp.H t)) fun j3 hj3 => ?_
  refine .left (hj3.mm hA) fun dJ hdJ => ?_
  exact packAbcej_rep ⟨hdA, hdb, hdC, hde, hdJ⟩

omit [LinearOrder K] in
theorem fzoh_rep (hp : p.Holds P) {u x : Tens K} {u' : Fin m → K} {x' : Fin n → K} (t : K) (hu : u.IsV u') (hx : x.IsV x') :
    PyRep (fun r Y => r.IsV Y) (tensFzoh p u x t) (P.tfFzoh x' t u') := by
  unfold tensFzoh CLQT.tfFzoh
  refine .left ((hp.F t).mv hx) fun a1 ha1 => ?_
  refine .left ((hp.L t).mv hu) fun a2 ha2 => ?_
  refine .left (ha1.add ha2) fun a3 ha3 => ?_
  exact ha3.add (hp.c t)

omit [LinearOrder K] in
theorem fnoZoh_rep (hp : p.Holds P) {Kx d x : Tens K} {Kx' : Matrix (Fin m) (Fin n) K} {d' : Fin m → K} {x' : Fin n → K} (t : K) (hK : Kx.IsM Kx')
    (hd : d.IsV d') (hx : x.IsV x') : PyRep (fun r Y => r.IsV Y) (tensFnoZoh p Kx d x t) (P.tfFnoZoh x' t (Kx', d')) := by
  unfold tensFnoZoh CLQT.tfFnoZoh
  refine .left (hK.mv hx) fun a1 ha1 => ?_
  refine .left (ha1.neg.add hd) fun u hu => ?_
  refine .left ((hp.F t).mv hx) fun a1 ha1 => ?_
  refine .left ((hp.L t).mv hu) fun a2 ha2 => ?_
  refine .left (ha1.add ha2) fun a3 ha3 => ?_
  exact ha3.add (hp.c t)

omit [LinearOrder K] in
theorem psiFwF_rep (hp : p.Holds P) {Kx d x : Tens K} {Kx' : Matrix (Fin m) (Fin n) K} {d' : Fin m → K} {X : Matrix (Fin n) (Fin (n + 1)) K} (t : K)
    (hK : Kx.IsM Kx') (hd : d.IsV d') (hx : x.IsM X) : PyRep (fun r Y => r.IsM Y) (tensPsiFwF p Kx d x t) (P.tfPsiFwF X t (Kx', d')) := by
  have hu := unpackSv_rep hx
  unfold CLQT.tfPsiFwF tensPsiFwF
  rw [show unpackPsiphiTF X = unpackSvTF X from rfl]
  generalize unpackSvTF X = q at hu ⊢
  obtain ⟨S, v⟩ := q
  refine .left hu fun r hr => ?_
  obtain ⟨tS, tv⟩ := r
  obtain ⟨hS, hv⟩ := hr
  dsimp only at hS hv ⊢
  refine .left ((hp.L t).mm hK) fun a1 ha1 => ?_
  refine .left ((hp.F t).sub ha1) fun tF htF => ?_
  refine .left ((hp.L t).mv hd) fun a2 ha2 => ?_
  refine .left ((hp.c t).add ha2) fun tc htc => ?_
  refine .left (htF.mm hS) fun dS hdS => ?_
  refine .left (htF.mv hv) fun b1 hb1 => ?_
  refine .left (hb1.add htc) fun dv hdv => ?_
  exact packSv_rep hdS hdv

omit [LinearOrder K] in
theorem psiBwF_rep (hp : p.Holds P) {Kx d x : Tens K} {Kx' : Matrix (Fin m) (Fin n) K} {d' : Fin m → K} {X : Matrix (Fin n) (Fin (n + 1)) K} (t : K)
    (hK : Kx.IsM Kx') (hd : d.IsV d') (hx : x.IsM X) : PyRep (fun r Y => r.IsM Y) (tensPsiBwF p Kx d x t) (P.tfPsiBwF X t (Kx', d')) := by
  have hu := unpackSv_rep hx
  unfold CLQT.tfPsiBwF tensPsiBwF
  rw [show unpackPsiphiTF X = unpackSvTF X from rfl]
  generalize unpackSvTF X = q at hu ⊢
  obtain ⟨S, v⟩ := q
  refine .left hu fun r hr => ?_
  obtain ⟨tS, tv⟩ := r
  obtain ⟨hS, hv⟩ := hr
  dsimp only at hS hv ⊢
  refine .left ((hp.L t).mm hK) fun a1 ha1 => ?_
  refine .left ((hp.F t).sub ha1) fun tF htF => ?_
  refine .left ((hp.L t).mv hd) fun a2 ha2 => ?_
  refine .left ((hp.c t).add ha2) fun tc htc => ?_
  refine .left (hS.mm htF) fun dS hdS => ?_
  refine .left (hS.mv htc) fun dv hdv => ?_
  exact packSv_rep hdS.negM hdv.neg

end Ordered

end Verif
