import Verif.Model.ShootingTensor
import Verif.Props.TensorHJB
import Verif.Proof.HJBTensorPass
import Verif.Proof.SQPTensor
import Verif.Proof.ShootingEval

/-! The tensor code of direct shooting computes item by item. -/

namespace Verif

variable {β : Type} {n : ℕ} {K : Type}

/-! ### Operations -/

theorem Tens.IsVt.entryLast {t : Tens K} {bs : List β} {f : β → Fin n → K} (h : t.HV bs f) (i : Fin n) :
    ∃ r, t.select (-1) i.val = .ok r ∧ r.HS bs fun x => f x i := by
  obtain ⟨s, v⟩ := t
  obtain ⟨h1, h2⟩ := h
  dsimp only at h1 h2
  subst h1
  exact ⟨⟨[bs.length], fun j => v (j.insertIdx 1 i.val)⟩, if_pos i.2, rfl, fun k hk => h2 k hk i⟩

theorem pack2Last {t0 t1 : Tens K} {bs : List β} {f0 f1 : β → K} (h0 : t0.HS bs f0) (h1 : t1.HS bs f1) :
    ∃ r, Tens.pack [t0, t1] (-1) = .ok r ∧ r.HV bs fun x => ![f0 x, f1 x] := by
  obtain ⟨s0, v0⟩ := t0
  obtain ⟨s1, v1⟩ := t1
  obtain ⟨a0, b0⟩ := h0
  obtain ⟨a1, b1⟩ := h1
  dsimp only at *
  subst a0 a1
  refine ⟨⟨[bs.length, 2], fun i => if i.getD 1 0 < 1 then v0 (i.eraseIdx 1) else v1 ((i.set 1 (i.getD 1 0 - 1)).eraseIdx 1)⟩, ?_, rfl,
    fun k hk i => ?_⟩
  · simp [Tens.pack, Tens.expandDims, tfAxis, Tens.concatAll, Tens.concat, pure, Except.pure, bind, Except.bind]
  · fin_cases i
    · simpa using b0 k hk
    · simpa using b1 k hk

theorem pack1Last {t0 : Tens K} {bs : List β} {f0 : β → K} (h0 : t0.HS bs f0) :
    ∃ r, Tens.pack [t0] (-1) = .ok r ∧ r.HV bs fun x => fun _ : Fin 1 => f0 x := by
  obtain ⟨s0, v0⟩ := t0
  obtain ⟨a0, b0⟩ := h0
  dsimp only at *
  subst a0
  refine ⟨⟨[bs.length, 1], fun i => v0 (i.eraseIdx 1)⟩, ?_, rfl, fun k hk i => ?_⟩
  · simp [Tens.pack, Tens.expandDims, tfAxis, Tens.concatAll, pure, Except.pure, bind, Except.bind]
  · exact b0 k hk

theorem Tens.IsVt.mapE {t : Tens K} {bs : List β} {f : β → Fin n → K} (h : t.HV bs f) (g : K → K) : (t.map g).HV bs fun x i => g (f x i) :=
  ⟨h.1, fun k hk i => congrArg g (h.2 k hk i)⟩

theorem Pointwise2.onS {F : TensFun K} {f : K → K → K} (h : Pointwise2 F f) {a b : Tens K} {bs : List β} {fa fb : β → K} (ha : a.HS bs fa)
    (hb : b.HS bs fb) : ∃ r, F a b = .ok r ∧ r.HS bs fun x => f (fa x) (fb x) := by
  obtain ⟨r, e, hs, hv⟩ := h a b (by rw [ha.1, hb.1])
  rw [ha.1] at hs hv
  refine ⟨r, e, hs, fun k hk => ?_⟩
  rw [hv _ (mem_allIdx1.2 ⟨k, rfl, hk⟩), ha.2 k hk, hb.2 k hk]

theorem Tens.HS.scongr {t : Tens K} {bs : List β} {f g : β → K} (h : t.HS bs f) (e : ∀ x ∈ bs, f x = g x) : t.HS bs g :=
  ⟨h.1, fun k hk => (h.2 k hk).trans (e _ (List.getElem_mem hk))⟩

theorem Tens.IsVt.strideL {t : Tens K} {bs : List β} {M : ℕ} {th : β → Fin M → K} (h : t.HV bs th) (start step cnt : ℕ)
    (hc : (M - start + step - 1) / step = cnt) (hlt : ∀ j : Fin cnt, start + step * j.val < M) :
    ∃ r, t.strideLast start step = .ok r ∧ r.HV bs fun x (j : Fin cnt) => th x ⟨start + step * j.val, hlt j⟩ := by
  obtain ⟨s, v⟩ := t
  obtain ⟨h1, h2⟩ := h
  dsimp only at h1 h2
  subst h1
  subst hc
  exact ⟨_, if_neg (by simp), rfl, fun k hk j => h2 k hk ⟨start + step * j.val, hlt j⟩⟩

theorem transpose_items {t : Tens K} {bs : List β} {M : ℕ} {th : β → Fin M → K} (h : t.HV bs th) :
    ∃ tt its, t.transpose = .ok tt ∧ tt.items = .ok its ∧
      List.Forall₂ (fun (t : Tens K) (f : β → K) => t.HS bs f) its (List.ofFn fun (j : Fin M) (x : β) => th x j) := by
  obtain ⟨s, v⟩ := t
  obtain ⟨h1, h2⟩ := h
  dsimp only at h1 h2
  subst h1
  refine ⟨_, _, rfl, rfl, ?_⟩
  rw [List.forall₂_iff_get]
  refine ⟨by simp, fun i h1 h2' => ?_⟩
  have hi : i < M := by simpa using h2'
  simp only [List.get_eq_getElem, List.getElem_map, List.getElem_range, List.getElem_ofFn]
  exact ⟨rfl, fun k hk => h2 k hk ⟨i, hi⟩⟩

theorem Tens.IsVt.dimL {t : Tens K} {bs : List β} {M : ℕ} {th : β → Fin M → K} (h : t.HV bs th) : t.dimLast = .ok M := by
  obtain ⟨s, v⟩ := t
  obtain ⟨h1, h2⟩ := h
  dsimp only at h1 h2
  subst h1
  rfl

theorem Tens.const_hS {bs : List β} {s : List ℕ} (hs : s = [bs.length]) (c : K) : (Tens.const s c).HS bs fun _ => c :=
  ⟨hs, fun _ _ => rfl⟩

theorem stack_last {l : List (Tens K)} (hl : l ≠ []) {bs : List β} {f : β → K} {s : List ℕ} (d : List ℕ → K) (hs : s = [bs.length])
    (h : ∀ t ∈ l, t.shape = [bs.length]) (hlast : (l.getLast hl).HS bs f) :
    ∃ t r, Tens.stack s d l = .ok t ∧ t.last = .ok r ∧ r.HS bs f := by
  subst hs
  obtain ⟨m, hm⟩ : ∃ m, l.length = m + 1 := Nat.exists_eq_succ_of_ne_zero (by simpa using hl)
  refine ⟨⟨l.length :: [bs.length], fun i => match l[i.getD 0 0]? with | some t => t.val i.tail | none => d i.tail⟩,
    ⟨[bs.length], fun i => match l[(i.insertIdx 0 m).getD 0 0]? with | some t => t.val (i.insertIdx 0 m).tail | none => d (i.insertIdx 0 m).tail⟩,
    if_pos (by simpa using h), ?_, rfl, fun k hk => ?_⟩
  · rw [hm]
    exact if_pos (Nat.lt_succ_self m)
  · have e : l[m]? = some (l.getLast hl) := by
      rw [List.getLast_eq_getElem, List.getElem?_eq_getElem (by omega)]
      simp [hm]
    simp only [List.insertIdx_zero, List.getD_cons_zero, List.tail_cons, e]
    exact hlast.2 k hk

section Field
variable [Field K]

/-! ### Runge-Kutta -/

/-- One step of the fourth order method for vectors. -/
def rk4Vec (G : (Fin n → K) → K → Fin n → K) (dt : K) (x : Fin n → K) (t : K) : Fin n → K :=
  let d1 : Fin n → K := fun i => G x t i * dt
  let d2 : Fin n → K := fun i => G (fun j => x j + 1 / 2 * d1 j) (t + 1 / 2 * dt) i * dt
  let d3 : Fin n → K := fun i => G (fun j => x j + 1 / 2 * d2 j) (t + 1 / 2 * dt) i * dt
  let d4 : Fin n → K := fun i => G (fun j => x j + d3 j) (t + dt) i * dt
  fun i => x i + 1 / 6 * (d1 i + 2 * d2 i + 2 * d3 i + d4 i)

theorem tensRk4_rep {bs : List β} {F : Tens K → K → Py (Tens K)} {G : β → (Fin n → K) → K → Fin n → K}
    (hF : ∀ (x : Tens K) (f : β → Fin n → K) (t : K), x.HV bs f → ∃ r, F x t = .ok r ∧ r.HV bs fun b => G b (f b) t)
    (dt : K) {x : Tens K} {f : β → Fin n → K} (hx : x.HV bs f) (t : K) :
    ∃ r, tensRk4 F dt x t = .ok r ∧ r.HV bs fun b => rk4Vec (G b) dt (f b) t := by
  obtain ⟨k1, e1, h1⟩ := hF x f t hx
  have d1 := h1.mapE (· * dt)
  obtain ⟨y1, e2, h2⟩ := hx.add (d1.mapE (1 / 2 * ·))
  obtain ⟨k2, e3, h3⟩ := hF y1 _ (t + 1 / 2 * dt) h2
  have d2 := h3.mapE (· * dt)
  obtain ⟨y2, e4, h4⟩ := hx.add (d2.mapE (1 / 2 * ·))
  obtain ⟨k3, e5, h5⟩ := hF y2 _ (t + 1 / 2 * dt) h4
  have d3 := h5.mapE (· * dt)
  obtain ⟨y3, e6, h6⟩ := hx.add d3
  obtain ⟨k4, e7, h7⟩ := hF y3 _ (t + dt) h6
  have d4 := h7.mapE (· * dt)
  obtain ⟨s1, e8, h8⟩ := d1.add (d2.mapE (2 * ·))
  obtain ⟨s2, e9, h9⟩ := h8.add (d3.mapE (2 * ·))
  obtain ⟨s3, e10, h10⟩ := h9.add d4
  obtain ⟨r, e11, h11⟩ := hx.add (h10.mapE (1 / 6 * ·))
  refine ⟨r, ?_, h11⟩
  exact bstep e1 (bstep e2 (bstep e3 (bstep e4 (bstep e5 (bstep e6 (bstep e7 (bstep e8 (bstep e9 (bstep e10 e11)))))))))

/-! ### Steps of the shooting -/

variable {g L : TensFun K} {gf Lf : K → K → K}

theorem tensShootF_rep (hg : Pointwise2 g gf) (hL : Pointwise2 L Lf) {bs : List β} {a b : Tens K} {fa fb : β → K} (ha : a.HS bs fa) (hb : b.HS bs fb)
    (ti : K) {x : Tens K} {f : β → Fin 2 → K} (hx : x.HV bs f) (t : K) :
    ∃ r, tensShootF g L a b ti x t = .ok r ∧
      r.HV bs fun y => ![gf (f y 0) (fa y + fb y * (t - ti)), Lf (f y 0) (fa y + fb y * (t - ti))] := by
  obtain ⟨u, e1, h1⟩ := ha.bin (· + ·) (hb.map (· * (t - ti)))
  obtain ⟨x0, e2, h2⟩ := hx.entryLast 0
  obtain ⟨dx, e3, h3⟩ := hg.onS h2 h1
  obtain ⟨dc, e4, h4⟩ := hL.onS h2 h1
  obtain ⟨r, e5, h5⟩ := pack2Last h3 h4
  exact ⟨r, bstep e1 (bstep e2 (bstep e3 (bstep e2 (bstep e4 e5)))), h5⟩

theorem rk4Vec_shoot (dt a b ti : K) (xc : K × K) :
    rk4Vec (fun (x : Fin 2 → K) (t : K) => ![gf (x 0) (a + b * (t - ti)), Lf (x 0) (a + b * (t - ti))]) dt ![xc.1, xc.2] ti =
      ![(shootStep gf Lf dt a b xc).1, (shootStep gf Lf dt a b xc).2] := by
  have e1 : ti - ti = 0 := sub_self _
  have e2 : ti + 1 / 2 * dt - ti = dt / 2 := by ring
  have e3 : ti + dt - ti = dt := by ring
  funext i
  fin_cases i
  · simp only [rk4Vec, shootStep, e1, e2, e3, mul_zero, add_zero, Fin.zero_eta, Matrix.cons_val_zero]
    simp only [mul_comm _ dt]
  · simp only [rk4Vec, shootStep, e1, e2, e3, mul_zero, add_zero, Fin.mk_one, Matrix.cons_val_zero, Matrix.cons_val_one]
    simp only [mul_comm _ dt]

/-- One step on tensors. -/
theorem shootRk4_rep (hg : Pointwise2 g gf) (hL : Pointwise2 L Lf) {bs : List β} {a b x c : Tens K} {fa fb : β → K} {s : β → K × K}
    (ha : a.HS bs fa) (hb : b.HS bs fb) (hx : x.HS bs fun y => (s y).1) (hc : c.HS bs fun y => (s y).2) (dt ti : K) :
    ∃ p r x' c', Tens.pack [x, c] (-1) = .ok p ∧ tensRk4 (tensShootF g L a b ti) dt p ti = .ok r ∧ r.select (-1) 0 = .ok x' ∧
      r.select (-1) 1 = .ok c' ∧ (x'.HS bs fun y => (shootStep gf Lf dt (fa y) (fb y) (s y)).1) ∧
      c'.HS bs fun y => (shootStep gf Lf dt (fa y) (fb y) (s y)).2 := by
  obtain ⟨p, e1, h1⟩ := pack2Last hx hc
  obtain ⟨r, e2, h2⟩ := tensRk4_rep (G := fun y x t => ![gf (x 0) (fa y + fb y * (t - ti)), Lf (x 0) (fa y + fb y * (t - ti))])
    (fun x f t hx => tensShootF_rep hg hL ha hb ti hx t) dt h1 ti
  have h3 := h2.fcongr (g := fun y => ![(shootStep gf Lf dt (fa y) (fb y) (s y)).1, (shootStep gf Lf dt (fa y) (fb y) (s y)).2])
    (fun y _ => rk4Vec_shoot dt (fa y) (fb y) ti (s y))
  obtain ⟨x', e3, h4⟩ := h3.entryLast 0
  obtain ⟨c', e4, h5⟩ := h3.entryLast 1
  exact ⟨p, r, x', c', e1, e2, e3, e4, h4, h5⟩

theorem shootBody1_rep (hg : Pointwise2 g gf) (hL : Pointwise2 L Lf) {bs : List β} {a b x c : Tens K} {fa fb : β → K} {s : β → K × K}
    (ha : a.HS bs fa) (hb : b.HS bs fb) (hx : x.HS bs fun y => (s y).1) (hc : c.HS bs fun y => (s y).2) (dt ti : K) :
    ∃ x' c', tensShootBody1 g L dt (x, c) ((a, b), ti) = .ok (x', c') ∧
      (x'.HS bs fun y => (shootStep gf Lf dt (fa y) (fb y) (s y)).1) ∧ c'.HS bs fun y => (shootStep gf Lf dt (fa y) (fb y) (s y)).2 := by
  obtain ⟨p, r, x', c', e1, e2, e3, e4, h4, h5⟩ := shootRk4_rep hg hL ha hb hx hc dt ti
  exact ⟨x', c', bstep e1 (bstep e2 (bstep e3 (bstep e4 rfl))), h4, h5⟩

theorem shootBody2_rep (hg : Pointwise2 g gf) (hL : Pointwise2 L Lf) {bs : List β} {u b x c : Tens K} {fu fb : β → K} {s : β → K × K}
    (hu : u.HS bs fu) (hb : b.HS bs fb) (hx : x.HS bs fun y => (s y).1) (hc : c.HS bs fun y => (s y).2) (dt ti : K) :
    ∃ x' c' u', tensShootBody2 g L dt (x, c, u) (b, ti) = .ok (x', c', u') ∧
      (x'.HS bs fun y => (shootStep gf Lf dt (fu y) (fb y) (s y)).1) ∧ (c'.HS bs fun y => (shootStep gf Lf dt (fu y) (fb y) (s y)).2) ∧
      u'.HS bs fun y => fu y + fb y * dt := by
  obtain ⟨p, r, x', c', e1, e2, e3, e4, h4, h5⟩ := shootRk4_rep hg hL hu hb hx hc dt ti
  obtain ⟨u', e5, h6⟩ := hu.bin (· + ·) (hb.map (· * dt))
  exact ⟨x', c', u', bstep e1 (bstep e2 (bstep e5 (bstep e3 (bstep e4 rfl)))), h4, h5, h6⟩

/-! ### Scans -/

theorem shootScan1_rep (hg : Pointwise2 g gf) (hL : Pointwise2 L Lf) {bs : List β} (dt : K) :
    ∀ {as bt : List (Tens K)} {fas fbs : List (β → K)} (ts : List K), List.Forall₂ (fun (t : Tens K) (f : β → K) => t.HS bs f) as fas →
      List.Forall₂ (fun (t : Tens K) (f : β → K) => t.HS bs f) bt fbs → bt.length = as.length → ts.length = as.length →
      ∀ {x c : Tens K} {s : β → K × K}, (x.HS bs fun y => (s y).1) → (c.HS bs fun y => (s y).2) →
      ∃ r, tfScanFwdM (tensShootBody1 g L dt) (x, c) ((as.zip bt).zip ts) = .ok r ∧ r.length = as.length ∧
        (∀ t ∈ r, t.1.shape = [bs.length] ∧ t.2.shape = [bs.length]) ∧
        (((x, c) :: r).getLast (List.cons_ne_nil _ _)).1.HS bs (fun y => (shoot1 gf Lf dt ((fas.zip fbs).map fun p => (p.1 y, p.2 y)) (s y)).1) ∧
        (((x, c) :: r).getLast (List.cons_ne_nil _ _)).2.HS bs fun y => (shoot1 gf Lf dt ((fas.zip fbs).map fun p => (p.1 y, p.2 y)) (s y)).2 := by
  intro as
  induction as with
  | nil =>
    intro bt fas fbs ts ha hb hl ht x c s hx hc
    cases ha
    cases List.length_eq_zero_iff.1 hl
    cases hb
    exact ⟨[], rfl, rfl, by simp, hx, hc⟩
  | cons a as ih =>
    intro bt fas fbs ts ha hb hl ht x c s hx hc
    cases ha with
    | cons h1 ha' =>
      cases hb with
      | nil => simp at hl
      | cons h2 hb' =>
        cases ts with
        | nil => simp at ht
        | cons ti ts =>
          obtain ⟨x', c', e1, h3, h4⟩ := shootBody1_rep hg hL h1 h2 hx hc dt ti
          obtain ⟨r, e2, h5, h6, h7, h8⟩ := ih ts ha' hb' (by simpa using hl) (by simpa using ht) h3 h4
          refine ⟨(x', c') :: r, bstep e1 (bstep e2 rfl), by simp [h5], ?_, ?_, ?_⟩
          · intro t ht
            rcases List.mem_cons.1 ht with rfl | ht
            · exact ⟨h3.1, h4.1⟩
            · exact h6 t ht
          · rw [List.getLast_cons (List.cons_ne_nil _ _)]; exact h7
          · rw [List.getLast_cons (List.cons_ne_nil _ _)]; exact h8

/-- State, cost and control after all steps of the second parametrisation. -/
def shoot2 (g L : K → K → K) (dt : K) (l : List K) (c : (K × K) × K) : (K × K) × K :=
  l.foldl (fun c b => (shootStep g L dt c.2 b c.1, c.2 + b * dt)) c

theorem shootScan2_rep (hg : Pointwise2 g gf) (hL : Pointwise2 L Lf) {bs : List β} (dt : K) :
    ∀ {bt : List (Tens K)} {fbs : List (β → K)} (ts : List K),
      List.Forall₂ (fun (t : Tens K) (f : β → K) => t.HS bs f) bt fbs → ts.length = bt.length →
      ∀ {x c u : Tens K} {s : β → (K × K) × K}, (x.HS bs fun y => (s y).1.1) → (c.HS bs fun y => (s y).1.2) → (u.HS bs fun y => (s y).2) →
      ∃ r, tfScanFwdM (tensShootBody2 g L dt) (x, c, u) (bt.zip ts) = .ok r ∧ r.length = bt.length ∧
        (∀ t ∈ r, t.1.shape = [bs.length] ∧ t.2.1.shape = [bs.length] ∧ t.2.2.shape = [bs.length]) ∧
        (((x, c, u) :: r).getLast (List.cons_ne_nil _ _)).1.HS bs (fun y => (shoot2 gf Lf dt (fbs.map fun p => p y) (s y)).1.1) ∧
        (((x, c, u) :: r).getLast (List.cons_ne_nil _ _)).2.1.HS bs fun y => (shoot2 gf Lf dt (fbs.map fun p => p y) (s y)).1.2 := by
  intro bt
  induction bt with
  | nil =>
    intro fbs ts hb ht x c u s hx hc hu
    cases hb
    exact ⟨[], rfl, rfl, by simp, hx, hc⟩
  | cons b bt ih =>
    intro fbs ts hb ht x c u s hx hc hu
    cases hb with
    | @cons _ f _ fbs h2 hb' =>
      cases ts with
      | nil => simp at ht
      | cons ti ts =>
        obtain ⟨x', c', u', e1, h3, h4, h4'⟩ := shootBody2_rep (s := fun y => (s y).1) hg hL hu h2 hx hc dt ti
        obtain ⟨r, e2, h5, h6, h7, h8⟩ := ih (s := fun y => (shootStep gf Lf dt (s y).2 (f y) (s y).1, (s y).2 + f y * dt)) ts hb'
          (by simpa using ht) h3 h4 h4'
        refine ⟨(x', c', u') :: r, bstep e1 (bstep e2 rfl), by simp [h5], ?_, ?_, ?_⟩
        · intro t ht
          rcases List.mem_cons.1 ht with rfl | ht
          · exact ⟨h3.1, h4.1, h4'.1⟩
          · exact h6 t ht
        · rw [List.getLast_cons (List.cons_ne_nil _ _)]; exact h7
        · rw [List.getLast_cons (List.cons_ne_nil _ _)]; exact h8

/-! ### Objective and constraint -/

theorem tensFunAndCon1_rep (hg : Pointwise2 g gf) (hL : Pointwise2 L Lf) (T : K) {N : ℕ} (hN : N ≠ 0) {bs : List β} {x0 xf a_vec b_vec : Tens K}
    {f0 ff : β → K} {fa fb : β → Fin N → K} (h0 : x0.HS bs f0) (hf : xf.HS bs ff) (ha : a_vec.HV bs fa) (hb : b_vec.HV bs fb) :
    ∃ cT cv, tensFunAndCon1 g L T x0 xf a_vec b_vec = .ok (cT, cv) ∧
      (cT.HS bs fun y => (shoot1 gf Lf (T / N) (List.ofFn fun i => (fa y i, fb y i)) (f0 y, 0)).2) ∧
      cv.HV bs fun y (_ : Fin 1) => (shoot1 gf Lf (T / N) (List.ofFn fun i => (fa y i, fb y i)) (f0 y, 0)).1 - ff y := by
  obtain ⟨ta, as, e1, e2, h1⟩ := transpose_items ha
  obtain ⟨tb, bt, e3, e4, h2⟩ := transpose_items hb
  have la : as.length = N := by rw [h1.length_eq, List.length_ofFn]
  have lb : bt.length = as.length := by rw [h2.length_eq, List.length_ofFn, la]
  obtain ⟨r, e5, h5, h6, h7, h8⟩ := shootScan1_rep (s := fun y => (f0 y, 0)) hg hL (T / N) ((List.range N).map fun (i : ℕ) => (i : K) * (T / N)) h1 h2 lb
    (by simp [la]) h0 (Tens.const_hS h0.1 0)
  have hz : ∀ y, ((List.ofFn fun (j : Fin N) (x : β) => fa x j).zip (List.ofFn fun (j : Fin N) (x : β) => fb x j)).map (fun p => (p.1 y, p.2 y)) =
      List.ofFn fun i => (fa y i, fb y i) := by
    intro y
    apply List.ext_getElem
    · simp
    · intro i h1 h2; simp
  simp only [hz] at h7 h8
  have hr : r ≠ [] := by
    intro h; rw [h, la] at h5; exact hN h5.symm
  rw [List.getLast_cons hr] at h7 h8
  have hr1 : r.map Prod.fst ≠ [] := by simpa using hr
  have hr2 : r.map Prod.snd ≠ [] := by simpa using hr
  obtain ⟨xs, xT, e6, e7, h9⟩ := stack_last hr1 x0.val h0.1 (by
    intro t ht; obtain ⟨p, hp, rfl⟩ := List.mem_map.1 ht; exact (h6 p hp).1) (by rw [List.getLast_map]; exact h7)
  obtain ⟨cs, cT, e8, e9, h10⟩ := stack_last hr2 (Tens.const x0.shape (0 : K)).val h0.1 (by
    intro t ht; obtain ⟨p, hp, rfl⟩ := List.mem_map.1 ht; exact (h6 p hp).2) (by rw [List.getLast_map]; exact h8)
  obtain ⟨d, e10, h11⟩ := h9.bin (· - ·) hf
  obtain ⟨cv, e11, h12⟩ := pack1Last h11
  refine ⟨cT, cv, ?_, h10, h12⟩
  refine bstep ha.dimL ?_
  refine Eq.trans (if_neg hN) ?_
  refine bstep e1 (bstep e2 (bstep e3 (bstep e4 ?_)))
  refine Eq.trans (if_neg (not_not.2 lb)) ?_
  exact bstep e5 (bstep e6 (bstep e8 (bstep e7 (bstep e9 (bstep e10 (bstep e11 rfl))))))

theorem tensFunAndCon2_rep (hg : Pointwise2 g gf) (hL : Pointwise2 L Lf) (T : K) {N : ℕ} (hN : N ≠ 0) {bs : List β} {x0 xf theta : Tens K}
    {f0 ff : β → K} {th : β → Fin (N + 1) → K} (h0 : x0.HS bs f0) (hf : xf.HS bs ff) (ht : theta.HV bs th) :
    ∃ cT cv, tensFunAndCon2 g L T x0 xf theta = .ok (cT, cv) ∧
      (cT.HS bs fun y => (shoot2 gf Lf (T / N) (List.ofFn fun i => th y i.succ) ((f0 y, 0), th y 0)).1.2) ∧
      cv.HV bs fun y (_ : Fin 1) => (shoot2 gf Lf (T / N) (List.ofFn fun i => th y i.succ) ((f0 y, 0), th y 0)).1.1 - ff y := by
  obtain ⟨u0, e0, hu⟩ := ht.entryLast 0
  obtain ⟨st, e1, hst⟩ := ht.strideL 1 1 N (by omega) (fun j => by omega)
  obtain ⟨tb, bt, e3, e4, h2⟩ := transpose_items hst
  have lb : bt.length = N := by rw [h2.length_eq, List.length_ofFn]
  obtain ⟨r, e5, h5, h6, h7, h8⟩ := shootScan2_rep (s := fun y => ((f0 y, 0), th y 0)) hg hL (T / N) ((List.range N).map fun (i : ℕ) => (i : K) * (T / N)) h2
    (by simp [lb]) h0 (Tens.const_hS h0.1 0) hu
  have hz : ∀ y, (List.ofFn fun (j : Fin N) (x : β) => th x ⟨1 + 1 * j.val, by omega⟩).map (fun p => p y) =
      List.ofFn fun i : Fin N => th y i.succ := by
    intro y
    apply List.ext_getElem
    · simp
    · intro i h1 h2
      simp only [List.getElem_map, List.getElem_ofFn]
      exact congrArg (th y) (Fin.ext (by simp [add_comm]))
  simp only [hz] at h7 h8
  have hr : r ≠ [] := by
    intro h; rw [h, lb] at h5; exact hN h5.symm
  rw [List.getLast_cons hr] at h7 h8
  have hr1 : r.map (·.1) ≠ [] := by simpa using hr
  have hr2 : r.map (·.2.1) ≠ [] := by simpa using hr
  obtain ⟨xs, xT, e6, e7, h9⟩ := stack_last hr1 x0.val h0.1 (by
    intro t ht; obtain ⟨p, hp, rfl⟩ := List.mem_map.1 ht; exact (h6 p hp).1) (by rw [List.getLast_map]; exact h7)
  obtain ⟨cs, cT, e8, e9, h10⟩ := stack_last hr2 (Tens.const x0.shape (0 : K)).val h0.1 (by
    intro t ht; obtain ⟨p, hp, rfl⟩ := List.mem_map.1 ht; exact (h6 p hp).2.1) (by rw [List.getLast_map]; exact h8)
  have e8' : ∃ us, Tens.stack u0.shape u0.val (r.map (·.2.2)) = .ok us := ⟨_, if_pos (by
    rw [hu.1]
    simpa using fun a b c h => (h6 (a, b, c) h).2.2)⟩
  obtain ⟨us, e8'⟩ := e8'
  obtain ⟨d, e10, h11⟩ := h9.bin (· - ·) hf
  obtain ⟨cv, e11, h12⟩ := pack1Last h11
  refine ⟨cT, cv, ?_, h10, h12⟩
  refine bstep ht.dimL ?_
  refine Eq.trans (if_neg hN) ?_
  refine bstep e0 (bstep e1 (bstep e3 (bstep e4 ?_)))
  exact bstep e5 (bstep e6 (bstep e8 (bstep e8' (bstep e7 (bstep e9 (bstep e10 (bstep e11 rfl)))))))

theorem funAndCon2TF_shoot (T x0 xf : K) {N : ℕ} (hN : N ≠ 0) (th : Fin (N + 1) → K) :
    funAndCon2TF gf Lf T x0 xf (List.ofFn th) =
      .ok ((shoot2 gf Lf (T / N) (List.ofFn fun i : Fin N => th i.succ) ((x0, 0), th 0)).1.2,
        (shoot2 gf Lf (T / N) (List.ofFn fun i : Fin N => th i.succ) ((x0, 0), th 0)).1.1 - xf) := by
  rw [List.ofFn_succ]
  unfold funAndCon2TF
  dsimp only
  rw [if_neg (by simpa using hN), List.length_ofFn,
    foldlM_ok _ (fun (c : (K × K) × K) (p : K × ℕ) => (shootStep gf Lf (T / N) c.2 p.1 c.1, c.2 + p.1 * (T / N)))
    (fun c p => by rw [rk4TF_shoot]; rfl),
    foldl_zipIdx (fun (c : (K × K) × K) (b : K) => (shootStep gf Lf (T / N) c.2 b c.1, c.2 + b * (T / N)))]
  rfl

theorem funAndCon1TF_shoot (T x0 xf : K) {N : ℕ} (hN : N ≠ 0) (a b : Fin N → K) :
    funAndCon1TF gf Lf T x0 xf (List.ofFn a) (List.ofFn b) =
      .ok ((shoot1 gf Lf (T / N) (List.ofFn fun i => (a i, b i)) (x0, 0)).2,
        (shoot1 gf Lf (T / N) (List.ofFn fun i => (a i, b i)) (x0, 0)).1 - xf) := by
  have hz : (List.ofFn a).zip (List.ofFn b) = List.ofFn fun i => (a i, b i) := by
    apply List.ext_getElem
    · simp
    · intro i h1 h2; simp
  rw [funAndCon1TF_eq, funAndCon1_eq _ _ _ _ _ _ _ (by simpa using hN) (by simp), hz, List.length_ofFn]

end Field

end Verif
