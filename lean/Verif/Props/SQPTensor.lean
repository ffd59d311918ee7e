import Verif.Proof.SQPTensor
import Verif.Proof.ExampleLQT
import Verif.Props.LQTTensor

/-!
Property C103: the batched tensor code of `/repo/parallel_control/sqp_tf.py`, modelled operation by operation, solves the quadratic programs
of all items, differentiates item by item, and runs for every item the iteration of `/repo/parallel_control/sqp_np.py`.
-/

namespace Verif

open Matrix

section Lqe
variable {n m : ℕ} {K : Type} [Field K] [DecidableEq K]

/-- C103: `lqe_solve` on a batch completes exactly if the system of every item is regular, and then item by item the result is the
solution of the optimality conditions of the quadratic program. -/
theorem C103_lqe (hm : 0 < m) (qs : List (Matrix (Fin n) (Fin n) K × (Fin n → K) × Matrix (Fin m) (Fin n) K × (Fin m → K))) {tG tc tA tb : Tens K}
    (hG : tG.IsMt (Equiv.refl _) (Equiv.refl _) qs (·.1)) (hc : tc.IsVt (Equiv.refl _) qs (·.2.1))
    (hA : tA.IsMt (Equiv.refl _) (Equiv.refl _) qs (·.2.2.1)) (hb : tb.IsVt (Equiv.refl _) qs (·.2.2.2)) :
    ((∃ r, tensLqeSolve tG tc tA tb = .ok r) ↔ ∀ q ∈ qs, (fromBlocks q.1 (-q.2.2.1ᵀ) q.2.2.1 0).det ≠ 0) ∧
    ∀ tx tl, tensLqeSolve tG tc tA tb = .ok (tx, tl) → ∃ sol : List ((Fin n → K) × (Fin m → K)),
      tx.IsVt (Equiv.refl _) sol (·.1) ∧ tl.IsVt (Equiv.refl _) sol (·.2) ∧
      List.Forall₂ (fun q s => q.1 *ᵥ s.1 + q.2.1 = q.2.2.1ᵀ *ᵥ s.2 ∧ q.2.2.1 *ᵥ s.1 = q.2.2.2) qs sol := by
  obtain ⟨h1, h2⟩ := lqe_rep hG hc hA hb hm
  cases hq : qs.mapM (fun x => lqeSolve x.1 x.2.1 x.2.2.1 x.2.2.2) with
  | error e =>
    obtain ⟨e', he'⟩ := h2 e hq
    rw [he']
    refine ⟨⟨(fun ⟨r, hr⟩ => by cases hr), fun h => ?_⟩, fun tx tl h => by cases h⟩
    exfalso
    obtain ⟨xs, hxs, -⟩ := mapM_total (Q := fun _ => True) (f := fun x => lqeSolve x.1 x.2.1 x.2.2.1 x.2.2.2) (l := qs) (fun q hq => by
      obtain ⟨r, hr⟩ := lqeSolve_total (h q hq) q.2.1 q.2.2.2
      exact ⟨r, hr, trivial⟩)
    have hxs := mapM_ok_iff.2 hxs
    rw [hq] at hxs
    cases hxs
  | ok xs =>
    obtain ⟨tx, tl, e, hx, hl⟩ := h1 xs hq
    have hfor := mapM_ok_iff.1 hq
    refine ⟨⟨fun _ q hqm => ?_, fun _ => ⟨_, e⟩⟩, fun tx' tl' h' => ?_⟩
    · obtain ⟨i, hi, rfl⟩ := List.getElem_of_mem hqm
      exact (lqeSolve_ok.1 (hfor.get hi (by rw [← hfor.length_eq]; exact hi))).1
    · rw [e] at h'
      obtain ⟨rfl, rfl⟩ := Prod.mk.inj (Except.ok.inj h')
      exact ⟨xs, hx, hl, hfor.imp fun q s hqs => ⟨(lqeSolve_ok.1 hqs).2.2, (lqeSolve_ok.1 hqs).2.1⟩⟩

/-- C103: without constraints `lqe_solve` of TensorFlow always raises, because it reads the entry `b[..., 0]` of an empty axis. -/
theorem C103_lqe_none (B : ℕ) (tG tc tA tb : Tens K) (hb : tb.shape = [B, 0]) : tensLqeSolve tG tc tA tb = .error .indexError := by
  obtain ⟨s, v⟩ := tb
  dsimp only at hb
  subst hb
  rfl

/-- Two programs with two variables and one constraint. -/
example : ∃ r, tensLqeSolve (K := ℚ) (tensMats [!![2, 0; 0, 1], !![1, 1; 1, 3]]) (tensRowsOf [![1, 0], ![0, 2]]) (tensMats [!![1, 1], !![1, -1]])
    (tensRowsOf [![3], ![5]]) = .ok r := by
  let qs : List (Matrix (Fin 2) (Fin 2) ℚ × (Fin 2 → ℚ) × Matrix (Fin 1) (Fin 2) ℚ × (Fin 1 → ℚ)) :=
    [(!![2, 0; 0, 1], ![1, 0], !![1, 1], ![3]), (!![1, 1; 1, 3], ![0, 2], !![1, -1], ![5])]
  refine ((C103_lqe (by norm_num) qs (tensMats_is qs (·.1)) (tensRowsOf_is qs (·.2.1)) (tensMats_is qs (·.2.2.1))
    (tensRowsOf_is qs (·.2.2.2))).1).2 ?_
  decide +kernel

/-- The numpy version of the program without constraints has a solution. -/
example : ∃ r, lqeSolve (K := ℚ) (n := 1) (m := 0) !![2] ![1] (fun i => i.elim0) (fun i => i.elim0) = .ok r :=
  lqeSolve_total (by decide +kernel) _ _

end Lqe

section AD
variable {n m d : ℕ} {f : (Fin n → ℝ) → (Fin d → ℝ) → ℝ} {c : (Fin n → ℝ) → (Fin d → ℝ) → Fin m → ℝ} {fn con : TensFun ℝ}

/-- C103: `fun_value_grad`, `con_value_jac` and `lag_value_grad_hess` on a batch return the values and derivatives of each item, although
the tape differentiates sums over the batch. -/
theorem C103_derivatives (h : ProgTens f c fn con) (hf : ∀ p, ContDiff ℝ 2 fun x => f x p) (hc : ∀ p, ContDiff ℝ 2 fun x => c x p)
    (l : List ((Fin n → ℝ) × (Fin m → ℝ) × (Fin d → ℝ))) {tx tl tp : Tens ℝ} (hx : tx.IsVt (Equiv.refl _) l (·.1))
    (hl : tl.IsVt (Equiv.refl _) l (·.2.1)) (hp : tp.IsVt (Equiv.refl _) l (·.2.2)) :
    (∃ v g, tensFunValueGrad fn tx tp = .ok (v, g) ∧ v.Is1 (l.map fun a => f a.1 a.2.2) ∧
      g.IsVt (Equiv.refl _) l fun a => adGrad (fun x => f x a.2.2) a.1) ∧
    (∃ v J, tensConValueJac con tx tp = .ok (v, J) ∧ v.IsVt (Equiv.refl _) l (fun a => c a.1 a.2.2) ∧
      J.IsMt (Equiv.refl _) (Equiv.refl _) l fun a => adJac (fun x => c x a.2.2) a.1) ∧
    ∃ v g H, tensLagValueGradHess fn con tx tl tp = .ok (v, g, H) ∧ v.Is1 (l.map fun a => f a.1 a.2.2 - a.2.1 ⬝ᵥ c a.1 a.2.2) ∧
      g.IsVt (Equiv.refl _) l (fun a => adGrad (fun x => f x a.2.2 - a.2.1 ⬝ᵥ c x a.2.2) a.1) ∧
      H.IsMt (Equiv.refl _) (Equiv.refl _) l fun a => adHess (fun x => f x a.2.2 - a.2.1 ⬝ᵥ c x a.2.2) a.1 := by
  have hs : ∀ {t : Tens ℝ} {g : (Fin n → ℝ) × (Fin m → ℝ) × (Fin d → ℝ) → ℝ}, t.HS l g → t.Is1 (l.map g) := fun ht =>
    ⟨by simpa using ht.1, fun k hk => by simpa using ht.2 k (by simpa using hk)⟩
  obtain ⟨v1, g1, e1, a1, b1⟩ := funGrad_rep h hf hx hp
  obtain ⟨v2, g2, e2, a2, b2⟩ := conJac_rep h hc hx hp
  obtain ⟨v3, g3, H3, e3, a3, b3, c3⟩ := lagHess_rep h hf hc hx hl hp
  exact ⟨⟨v1, g1, e1, hs a1, b1⟩, ⟨v2, g2, e2, a2, b2⟩, v3, g3, H3, e3, hs a3, b3, c3⟩

/-- C103: `local_eq_fast` with `batch=True` completes exactly if the functional model of it does, with the same iterates, multipliers and
criteria. -/
theorem C103_sqp (h : ProgTens f c fn con) (hf : ∀ p, ContDiff ℝ 2 fun x => f x p) (hc : ∀ p, ContDiff ℝ 2 fun x => c x p) (hm : 0 < m)
    (x0 : List (Fin n → ℝ)) (pars : List (Fin d → ℝ)) (hl : x0.length = pars.length) {tx tp : Tens ℝ} (hx : tx.HoldsV x0) (hp : tp.HoldsV pars)
    (num_iter : ℕ) :
    ((∃ r, tensLocalEqFast fn con tx tp num_iter = .ok r) ↔ ∃ l, tfLocalEqFast f c x0 pars num_iter = .ok l) ∧
    ∀ xs lams crits l, tensLocalEqFast fn con tx tp num_iter = .ok (xs, lams, crits) → tfLocalEqFast f c x0 pars num_iter = .ok l →
      xs.HoldsRuns x0.length (l.map fun s => s.1.map (·.1)) ∧ lams.HoldsRuns x0.length (l.map fun s => s.1.map (·.2)) ∧ crits = l.map (·.2) := by
  obtain ⟨h1, h2⟩ := localEqFast_rep h hf hc hm hl hx hp num_iter
  cases hq : tfLocalEqFast f c x0 pars num_iter with
  | error e =>
    obtain ⟨e', he'⟩ := h2 e hq
    rw [he']
    exact ⟨⟨(fun ⟨r, hr⟩ => by cases hr), fun ⟨r, hr⟩ => by cases hr⟩, fun _ _ _ _ h => by cases h⟩
  | ok l =>
    obtain ⟨xs, lams, e, a1, a2⟩ := h1 l hq
    refine ⟨⟨fun _ => ⟨_, rfl⟩, fun _ => ⟨_, e⟩⟩, fun xs' lams' crits' l' h' hl' => ?_⟩
    rw [e] at h'
    cases h'
    cases hl'
    rw [hl]
    exact ⟨a1, a2, rfl⟩

theorem scanFwd_prefix {α β : Type} (body : β → α → Py β) : ∀ (its : List α) (b : β) (l : List β), tfScanFwdM body b its = .ok l →
    ∀ (j : ℕ) (hj : j < l.length), (its.take (j + 1)).foldlM body b = .ok l[j] := by
  intro its
  induction its with
  | nil => intro b l h j hj; cases h; simp at hj
  | cons a its ih =>
    intro b l h j hj
    rw [tfScanFwdM] at h
    obtain ⟨b', h1, h2⟩ := bind_ok.1 h
    obtain ⟨r, h3, h4⟩ := bind_ok.1 h2
    cases h4
    rw [List.take_succ_cons, List.foldlM_cons, h1]
    cases j with
    | zero => rfl
    | succ j => exact ih b' r h3 j (by simpa using hj)

theorem scanFwd_length {α β : Type} (body : β → α → Py β) : ∀ (its : List α) (b : β) (l : List β), tfScanFwdM body b its = .ok l →
    l.length = its.length := by
  intro its
  induction its with
  | nil => intro b l h; cases h; rfl
  | cons a its ih =>
    intro b l h
    rw [tfScanFwdM] at h
    obtain ⟨b', h1, h2⟩ := bind_ok.1 h
    obtain ⟨r, h3, h4⟩ := bind_ok.1 h2
    cases h4
    simp [ih b' r h3]

/-- C103: item `b` of the iterate `j` is the point that `local_eq_fast` of numpy returns after `j + 1` iterations for this item alone; the
batch completes exactly if every item does. -/
theorem C103_items (h : ProgTens f c fn con) (hf : ∀ p, ContDiff ℝ 2 fun x => f x p) (hc : ∀ p, ContDiff ℝ 2 fun x => c x p) (hm : 0 < m)
    (x0 : List (Fin n → ℝ)) (pars : List (Fin d → ℝ)) (hl : x0.length = pars.length) {tx tp : Tens ℝ} (hx : tx.HoldsV x0) (hp : tp.HoldsV pars)
    (num_iter : ℕ) :
    ((∃ r, tensLocalEqFast fn con tx tp num_iter = .ok r) ↔
      ∀ (b : ℕ) (hb : b < x0.length), ∃ r, adLocalEqFast (fun x => f x pars[b]) (fun x => c x pars[b]) x0[b] num_iter = .ok r) ∧
    ∀ xs lams crits, tensLocalEqFast fn con tx tp num_iter = .ok (xs, lams, crits) → ∀ j < num_iter, ∀ (b : ℕ) (hb : b < x0.length),
      ∃ x crit, adLocalEqFast (fun x => f x pars[b]) (fun x => c x pars[b]) x0[b] (j + 1) = .ok (x, j + 1, crit) ∧
        ∀ i : Fin n, xs.val [j, b, i.val] = x i := by
  obtain ⟨h1, h2⟩ := C103_sqp h hf hc hm x0 pars hl hx hp num_iter
  have hlen : (x0.map fun x => (x, (0 : Fin m → ℝ))).length = pars.length := by simpa using hl
  have hrow : ∀ (k b : ℕ) (hb : b < x0.length) (y : (Fin n → ℝ) × (Fin m → ℝ)),
      rowLoop f c k ((x0[b], 0), pars[b]) = .ok y →
      ∃ cr, adLocalEqFast (fun x => f x pars[b]) (fun x => c x pars[b]) x0[b] k = .ok (y.1, k, cr) := by
    intro k b hb y hy
    rw [rowLoop_eq f c k x0[b] pars[b] 0 1] at hy
    obtain ⟨r, h3, h4⟩ := bind_ok.1 hy
    refine ⟨r.2.2, ?_⟩
    cases h4
    unfold adLocalEqFast
    rw [h3]
    rfl
  have hrow' : ∀ (k b : ℕ) (hb : b < x0.length), (∃ r, adLocalEqFast (fun x => f x pars[b]) (fun x => c x pars[b]) x0[b] k = .ok r) →
      ∃ y, rowLoop f c k ((x0[b], 0), pars[b]) = .ok y := by
    rintro k b hb ⟨r, hr⟩
    unfold adLocalEqFast at hr
    obtain ⟨s, h3, -⟩ := bind_ok.1 hr
    rw [rowLoop_eq f c k x0[b] pars[b] 0 1, h3]
    exact ⟨_, rfl⟩
  have hitem : ∀ (k : ℕ) (ys : List ((Fin n → ℝ) × (Fin m → ℝ))),
      ((x0.map fun x => (x, (0 : Fin m → ℝ))).zip pars).mapM (rowLoop f c k) = .ok ys → ys.length = x0.length ∧
      ∀ (b : ℕ) (hb : b < x0.length) (hb' : b < ys.length), rowLoop f c k ((x0[b], 0), pars[b]) = .ok ys[b] := by
    intro k ys hys
    have hfor := mapM_ok_iff.1 hys
    refine ⟨by rw [← hfor.length_eq]; simp [hl], fun b hb hb' => ?_⟩
    simpa using hfor.get (by simpa [← hl] using hb) hb'
  constructor
  · rw [h1]
    constructor
    · rintro ⟨l, hq⟩ b hb
      cases num_iter with
      | zero => exact ⟨_, rfl⟩
      | succ k =>
        have hll := scanFwd_length _ _ _ _ hq
        have h3 := scanFwd_prefix _ _ _ _ hq k (by rw [hll]; simp)
        rw [List.take_of_length_le (by simp)] at h3
        have h4 := (tfLoop_ok f c pars (k + 1) _ 1 _ hlen).1 ⟨_, h3⟩
        obtain ⟨h5, h6⟩ := hitem _ _ h4
        obtain ⟨cr, h7⟩ := hrow _ b hb _ (h6 b hb (by rw [h5]; exact hb))
        exact ⟨_, h7⟩
    · intro hall
      obtain ⟨ys, hys, -⟩ := mapM_total (Q := fun _ => True) (f := rowLoop f c num_iter) (l := (x0.map fun x => (x, (0 : Fin m → ℝ))).zip pars)
        (fun a ha => by
          obtain ⟨b, hb, rfl⟩ := List.getElem_of_mem ha
          have hb' : b < x0.length := by simp at hb; omega
          obtain ⟨y, hy⟩ := hrow' num_iter b hb' (hall b hb')
          exact ⟨y, by simpa using hy, trivial⟩)
      obtain ⟨cr, h3⟩ := (tfLoop_ok f c pars num_iter _ 1 _ hlen).2 (mapM_ok_iff.2 hys)
      rw [← tfScanFwdM_last'] at h3
      obtain ⟨l, h4, -⟩ := bind_ok.1 h3
      exact ⟨l, h4⟩
  · intro xs lams crits hr j hj b hb
    obtain ⟨l, hq⟩ := h1.1 ⟨_, hr⟩
    obtain ⟨h3, -, -⟩ := h2 xs lams crits l hr hq
    have hll := scanFwd_length _ _ _ _ hq
    have hjl : j < l.length := by rw [hll]; simpa using hj
    have h4 := scanFwd_prefix _ _ _ _ hq j hjl
    have e : (List.range num_iter).take (j + 1) = List.range (j + 1) := by
      rw [List.take_range]
      congr 1
      omega
    rw [e] at h4
    have h5 := (tfLoop_ok f c pars (j + 1) _ 1 _ hlen).1 ⟨_, h4⟩
    obtain ⟨h6, h7⟩ := hitem _ _ h5
    have hb' : b < l[j].1.length := lt_of_lt_of_eq hb h6.symm
    obtain ⟨cr, h8⟩ := hrow _ b hb _ (h7 b hb hb')
    refine ⟨_, cr, h8, fun i => ?_⟩
    have hi : ∀ (L : List (List (Fin n → ℝ))) (_ : L = l.map fun s => s.1.map (·.1)) (h1 : j < L.length) (h2 : b < L[j].length),
        L[j][b] = (l[j].1[b]).1 := by
      rintro _ rfl h1 h2
      simp only [List.getElem_map]
    have hj1 : j < (l.map fun s => s.1.map (·.1)).length := by simpa using hjl
    have hb1 : b < ((l.map fun (s : List ((Fin n → ℝ) × (Fin m → ℝ)) × ℝ) => s.1.map (·.1))[j]'hj1).length := by simpa using hb'
    exact (h3.2.2 j hj1 b hb1 i).trans (congrFun (hi _ rfl hj1 hb1) i)

/-- C103: for strictly convex quadratic objectives and linear independent constraints every iterate of every item is the minimiser of this
item. -/
theorem C103_quadratic (h : ProgTens f c fn con) (hm : 0 < m) (G : (Fin d → ℝ) → Matrix (Fin n) (Fin n) ℝ) (g : (Fin d → ℝ) → Fin n → ℝ)
    (e : (Fin d → ℝ) → ℝ) (A : (Fin d → ℝ) → Matrix (Fin m) (Fin n) ℝ) (a : (Fin d → ℝ) → Fin m → ℝ) (hG : ∀ p, (G p)ᵀ = G p) (hP : ∀ p, IsPD (G p))
    (hf : ∀ x p, f x p = 1 / 2 * (x ⬝ᵥ G p *ᵥ x) + g p ⬝ᵥ x + e p) (hc : ∀ x p, c x p = A p *ᵥ x + a p) (hA : ∀ p v, (A p)ᵀ *ᵥ v = 0 → v = 0)
    (x0 : List (Fin n → ℝ)) (pars : List (Fin d → ℝ)) (hl : x0.length = pars.length) {tx tp : Tens ℝ} (hx : tx.HoldsV x0) (hp : tp.HoldsV pars)
    (num_iter : ℕ) :
    ∃ xs lams crits, tensLocalEqFast fn con tx tp num_iter = .ok (xs, lams, crits) ∧ ∀ j < num_iter, ∀ (b : ℕ) (hb : b < x0.length),
      ∃ x : Fin n → ℝ, (∀ i : Fin n, xs.val [j, b, i.val] = x i) ∧ c x pars[b] = 0 ∧ ∀ y, c y pars[b] = 0 → f x pars[b] ≤ f y pars[b] ∧
        (f y pars[b] ≤ f x pars[b] → y = x) := by
  have hf2 : ∀ p, ContDiff ℝ 2 fun x => f x p := by
    intro p
    simp only [hf, dotProduct, mulVec]
    fun_prop
  have hc2 : ∀ p, ContDiff ℝ 2 fun x => c x p := by
    intro p
    simp only [hc, contDiff_pi, dotProduct, mulVec, Pi.add_apply]
    fun_prop
  obtain ⟨h1, h2⟩ := C103_items h hf2 hc2 hm x0 pars hl hx hp num_iter
  have hq := fun p => adLocalEqFast_quad (fun x => f x p) (fun x => c x p) (G p) (hG p) (hP p) (g p) (e p) (fun x => hf x p) (A p) (a p)
    (fun x => hc x p) (hA p)
  obtain ⟨⟨xs, lams, crits⟩, hr⟩ := h1.2 (fun b hb => by
    cases num_iter with
    | zero => exact ⟨_, rfl⟩
    | succ k =>
      obtain ⟨ths, -, -, -, h4⟩ := hq (pars[b]'(by omega))
      obtain ⟨cr, h5⟩ := h4 x0[b] k
      exact ⟨_, h5⟩)
  refine ⟨xs, lams, crits, hr, fun j hj b hb => ?_⟩
  obtain ⟨ths, h5, h6, -, h7⟩ := hq (pars[b]'(by omega))
  obtain ⟨x, cr, h8, h9⟩ := h2 xs lams crits hr j hj b hb
  obtain ⟨cr', h10⟩ := h7 x0[b] j
  have : ths = x := by
    have := h10.symm.trans h8
    cases this
    rfl
  subst this
  exact ⟨ths, h9, h5, h6⟩

end AD

/-- The objective `x0 ^ 2 + x1 ^ 2` on tensors. -/
noncomputable def C103_fn : TensFun ℝ := fun x _ => do
  ((← x.select 1 0).map (· ^ 2)).bin (· + ·) ((← x.select 1 1).map (· ^ 2))

/-- The constraint `x0 + x1 = p0` on tensors. -/
noncomputable def C103_con : TensFun ℝ := fun x par => do
  (← (← (← x.select 1 0).bin (· + ·) (← x.select 1 1)).bin (· - ·) (← par.select 1 0)).expandDims (-1)

theorem C103_prog : ProgTens (n := 2) (m := 1) (d := 1) (fun x _ => x 0 ^ 2 + x 1 ^ 2) (fun x p _ => x 0 + x 1 - p 0) C103_fn C103_con := by
  constructor
  · intro l tx tp hx hp
    obtain ⟨a, e1, h1⟩ := Tens.IsVt.entry hx 0
    obtain ⟨b, e2, h2⟩ := Tens.IsVt.entry hx 1
    obtain ⟨r, e3, h3⟩ := (h1.map (· ^ 2)).bin (· + ·) (h2.map (· ^ 2))
    exact ⟨r, bstep e1 (bstep e2 e3), h3⟩
  · intro l tx tp hx hp
    obtain ⟨a, e1, h1⟩ := Tens.IsVt.entry hx 0
    obtain ⟨b, e2, h2⟩ := Tens.IsVt.entry hx 1
    obtain ⟨q, e3, h3⟩ := Tens.IsVt.entry hp 0
    obtain ⟨r, e4, h4⟩ := h1.bin (· + ·) h2
    obtain ⟨s, e5, h5⟩ := h4.bin (· - ·) h3
    obtain ⟨t, e6, h6⟩ := h5.colS
    exact ⟨t, bstep e1 (bstep e2 (bstep e4 (bstep e3 (bstep e5 e6)))), h6⟩

/-- Two programs with different right hand sides, three iterations: they complete, and every iterate is the minimiser. -/
example : ∃ xs lams crits, tensLocalEqFast C103_fn C103_con (tensRowsOf [![0, 0], ![3, 1]]) (tensRowsOf [![1], ![2]]) 3 = .ok (xs, lams, crits) ∧
    ∀ j < 3, xs.val [j, 1, 0] + xs.val [j, 1, 1] = 2 := by
  obtain ⟨xs, lams, crits, h1, h2⟩ := C103_quadratic C103_prog (by norm_num) (fun _ => (2 : ℝ) • 1) (fun _ => 0) (fun _ => 0) (fun _ => !![1, 1])
    (fun p => ![-p 0]) (fun _ => by simp) (fun _ => isPD_smul_one 2 (by norm_num))
    (fun x p => by simp [dotProduct, Fin.sum_univ_two, smul_mulVec]; ring)
    (fun x p => by funext i; fin_cases i; simp [dotProduct, Fin.sum_univ_two]; ring)
    (fun p v hv => by
      funext i
      fin_cases i
      simpa [mulVec, dotProduct] using congrFun hv 0)
    [![0, 0], ![3, 1]] [![1], ![2]] rfl (tensRowsOf_is [![0, 0], ![3, 1]] fun v => v) (tensRowsOf_is [![1], ![2]] fun v => v) 3
  refine ⟨xs, lams, crits, by simpa using h1, fun j hj => ?_⟩
  obtain ⟨x, h3, h4, -⟩ := h2 j hj 1 (by norm_num)
  have e0 := h3 0
  have e1 := h3 1
  have e2 := congrFun h4 0
  simp at e0 e1 e2
  rw [e0, e1]
  linarith

/-- The hypotheses of `C103_derivatives`, `C103_sqp` and `C103_items`. -/
example : (∀ p : Fin 1 → ℝ, ContDiff ℝ 2 fun x : Fin 2 → ℝ => (fun (x : Fin 2 → ℝ) (_ : Fin 1 → ℝ) => x 0 ^ 2 + x 1 ^ 2) x p) ∧
    (∀ p : Fin 1 → ℝ, ContDiff ℝ 2 fun x : Fin 2 → ℝ => (fun (x : Fin 2 → ℝ) (p : Fin 1 → ℝ) (_ : Fin 1) => x 0 + x 1 - p 0) x p) ∧
    Tens.HoldsV (n := 2) (tensRowsOf [![(0 : ℝ), 0], ![3, 1]]) [![0, 0], ![3, 1]] ∧ Tens.HoldsV (n := 1) (tensRowsOf [![(1 : ℝ)], ![2]]) [![1], ![2]] := by
  refine ⟨fun p => by fun_prop, fun p => by simp only [contDiff_pi]; fun_prop, ?_, ?_⟩
  · simpa [Tens.HoldsV] using tensRowsOf_is [![(0 : ℝ), 0], ![3, 1]] fun v => v
  · simpa [Tens.HoldsV] using tensRowsOf_is [![(1 : ℝ)], ![2]] fun v => v

end Verif
