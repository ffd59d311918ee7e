import Verif.Proof.ShootingTensorEval
import Verif.Props.ShootingSQP
import Verif.Props.HJBTensor

/-!
Property C105: the batched tensor code of direct shooting in `/repo/parallel_control/hjb_grid_1d_tf.py`, modelled operation by operation with
the Runge-Kutta step of `/repo/parallel_control/diffeq_tf.py`, computes for every item of the batch the cost and the constraint violation, and
for every pair of grid points the value of the numpy version.
-/

namespace Verif

open Matrix

section Field
variable {K : Type} [Field K] {n N : ℕ} {g L : TensFun K} {gf Lf : K → K → K}

/-- C105: `rk4` on a batch of vectors is `rk4` of every item, if the right hand side works item by item. -/
theorem C105_rk4 {β : Type} {items : List β} {F : Tens K → K → Py (Tens K)} {G : β → (Fin n → K) → K → Fin n → K}
    (hF : ∀ (x : Tens K) (f : β → Fin n → K) (t : K), x.IsVt (Equiv.refl _) items f →
      ∃ r, F x t = .ok r ∧ r.IsVt (Equiv.refl _) items fun b => G b (f b) t)
    (dt : K) {x : Tens K} {f : β → Fin n → K} (hx : x.IsVt (Equiv.refl _) items f) (t : K) :
    ∃ r v, tensRk4 F dt x t = .ok r ∧ r.IsVt (Equiv.refl _) items v ∧
      ∀ b, rk4TF (fun y s (_ : Unit) => .ok (G b y s)) dt (f b) t () = .ok (v b) := by
  obtain ⟨r, e, h⟩ := tensRk4_rep hF dt hx t
  refine ⟨r, _, e, h, fun b => ?_⟩
  unfold rk4TF rk4Vec
  have hm : ∀ w : Fin n → K, dt • w = fun i => w i * dt := fun w => funext fun i => mul_comm _ _
  simp only [hm]
  rfl

/-- C105: `fun_and_con_1` on a batch returns for every item the cost and the constraint violation of the functional model. -/
theorem C105_fun1 (hg : Pointwise2 g gf) (hL : Pointwise2 L Lf) (T : K) (hN : N ≠ 0) (items : List (K × K × (Fin N → K) × (Fin N → K)))
    {x0 xf a_vec b_vec : Tens K} (h0 : x0.Is1 (items.map (·.1))) (hf : xf.Is1 (items.map (·.2.1)))
    (ha : a_vec.IsVt (Equiv.refl _) items (·.2.2.1)) (hb : b_vec.IsVt (Equiv.refl _) items (·.2.2.2)) :
    ∃ cT cv, tensFunAndCon1 g L T x0 xf a_vec b_vec = .ok (cT, cv) ∧ cT.shape = [items.length] ∧ cv.shape = [items.length, 1] ∧
      ∀ (b : ℕ) (h : b < items.length), funAndCon1TF gf Lf T items[b].1 items[b].2.1 (List.ofFn items[b].2.2.1) (List.ofFn items[b].2.2.2) =
        .ok (cT.val [b], cv.val [b, 0]) := by
  have hS : ∀ {t : Tens K} {w : K × K × (Fin N → K) × (Fin N → K) → K}, t.Is1 (items.map w) → t.HS items w := fun h =>
    ⟨by simpa using h.1, fun k hk => (h.2 k (by simpa using hk)).trans (List.getElem_map _)⟩
  obtain ⟨cT, cv, e, h1, h2⟩ := tensFunAndCon1_rep hg hL T hN (hS h0) (hS hf) ha hb
  refine ⟨cT, cv, e, h1.1, h2.1, fun b hb => ?_⟩
  rw [funAndCon1TF_shoot _ _ _ hN, h1.2 b hb]
  exact congrArg Except.ok (Prod.ext rfl (h2.2 b hb 0).symm)

/-- C105: `fun_and_con_2` on a batch returns for every item the cost and the constraint violation of the functional model. -/
theorem C105_fun2 (hg : Pointwise2 g gf) (hL : Pointwise2 L Lf) (T : K) (hN : N ≠ 0) (items : List (K × K × (Fin (N + 1) → K)))
    {x0 xf theta : Tens K} (h0 : x0.Is1 (items.map (·.1))) (hf : xf.Is1 (items.map (·.2.1)))
    (ht : theta.IsVt (Equiv.refl _) items (·.2.2)) :
    ∃ cT cv, tensFunAndCon2 g L T x0 xf theta = .ok (cT, cv) ∧ cT.shape = [items.length] ∧ cv.shape = [items.length, 1] ∧
      ∀ (b : ℕ) (h : b < items.length), funAndCon2TF gf Lf T items[b].1 items[b].2.1 (List.ofFn items[b].2.2) =
        .ok (cT.val [b], cv.val [b, 0]) := by
  have hS : ∀ {t : Tens K} {w : K × K × (Fin (N + 1) → K) → K}, t.Is1 (items.map w) → t.HS items w := fun h =>
    ⟨by simpa using h.1, fun k hk => (h.2 k (by simpa using hk)).trans (List.getElem_map _)⟩
  obtain ⟨cT, cv, e, h1, h2⟩ := tensFunAndCon2_rep hg hL T hN (hS h0) (hS hf) ht
  refine ⟨cT, cv, e, h1.1, h2.1, fun b hb => ?_⟩
  rw [funAndCon2TF_shoot _ _ _ hN, h1.2 b hb]
  exact congrArg Except.ok (Prod.ext rfl (h2.2 b hb 0).symm)

/-- C105: different numbers of values and slopes raise. -/
theorem C105_lengths (T : K) {B N' : ℕ} (hN : N ≠ 0) (hNN : N' ≠ N) (x0 xf a_vec b_vec : Tens K) (ha : a_vec.shape = [B, N])
    (hb : b_vec.shape = [B, N']) : tensFunAndCon1 g L T x0 xf a_vec b_vec = .error .valueError := by
  obtain ⟨sa, va⟩ := a_vec
  obtain ⟨sb, vb⟩ := b_vec
  dsimp only at ha hb
  subst ha hb
  refine bstep (a := N) rfl ?_
  refine Eq.trans (if_neg hN) ?_
  refine bstep rfl (bstep rfl (bstep rfl (bstep rfl ?_)))
  exact if_pos (by simpa using hNN)

end Field

section Eval
variable {p q : ℕ} {g L : TensFun ℝ} {gf Lf : ℝ → ℝ → ℝ}

/-- C105: `V_eval_1` of TensorFlow on grids of any sizes completes exactly if the numpy version has a value for every pair of grid points,
and then the entry `[i, j]` is this value for the pair of the start point `i` and the end point `j`. -/
theorem C105_eval1 (hg : Pointwise2 g gf) (hL : Pointwise2 L Lf) (hgc : ContDiff ℝ 2 fun p : ℝ × ℝ => gf p.1 p.2)
    (hLc : ContDiff ℝ 2 fun p : ℝ × ℝ => Lf p.1 p.2) (T : ℝ) {steps max_iter : ℕ} (hs : steps ≠ 0) (hm : max_iter ≠ 0)
    {x0 : Fin p → ℝ} {xf : Fin q → ℝ} {t0 tf : Tens ℝ} (h0 : t0.IsV x0) (hf : tf.IsV xf) :
    ((∃ V, tensVEval1 g L T steps t0 tf max_iter = .ok V) ↔ ∀ i j, ∃ v, vEvalOne1 gf Lf T steps max_iter (x0 i) (xf j) = .ok v) ∧
    ∀ V, tensVEval1 g L T steps t0 tf max_iter = .ok V →
      V.shape = [p, q] ∧ ∀ (i : Fin p) (j : Fin q), vEvalOne1 gf Lf T steps max_iter (x0 i) (xf j) = .ok (V.val [i.val, j.val]) := by
  obtain ⟨k, rfl⟩ := Nat.exists_eq_succ_of_ne_zero hm
  obtain ⟨h1, h2, -⟩ := tensVEval_rep (fc1_prog hg hL T hs) (fun p => (shootF1_smooth hgc hLc T steps p).1)
    (fun p => (shootF1_smooth hgc hLc T steps p).2) h0 hf k
  have key : ∀ (i : Fin p) (j : Fin q) {r}, adLocalEqFast (fun th => (shootF1 gf Lf T steps th ![x0 i, xf j]).1)
      (fun th (_ : Fin 1) => (shootF1 gf Lf T steps th ![x0 i, xf j]).2) 0 (k + 1) = .ok r →
      vEvalOne1 gf Lf T steps (k + 1) (x0 i) (xf j) = .ok (shootF1 gf Lf T steps r.1 ![x0 i, xf j]).1 := by
    intro i j r hr
    rw [vEvalOne1_core]
    exact vEvalCore_ok _ _ (fun th => shootF1_eq T hs th ![x0 i, xf j]) _ hr
  refine ⟨⟨fun ⟨V, hV⟩ i j => ?_, fun hall => h1.2 fun i j => ?_⟩, fun V hV => ?_⟩
  · obtain ⟨r, hr, -⟩ := (h2 V hV).2 i j
    exact ⟨_, key i j hr⟩
  · obtain ⟨v, hv⟩ := hall i j
    unfold vEvalOne1 at hv
    obtain ⟨-, -, h3⟩ := bind_ok.1 hv
    obtain ⟨r, h4, -⟩ := bind_ok.1 h3
    have e : ∀ th, pyVal (funAndCon1 gf Lf T (x0 i) (xf j) (thetaEven th) (thetaOdd th)) = shootF1 gf Lf T steps th ![x0 i, xf j] := fun th => by
      rw [show funAndCon1 gf Lf T (x0 i) (xf j) (thetaEven th) (thetaOdd th) = _ from shootF1_eq T hs th ![x0 i, xf j]]
      rfl
    simp only [e] at h4
    exact ⟨r, h4⟩
  · obtain ⟨h3, h4⟩ := h2 V hV
    refine ⟨h3, fun i j => ?_⟩
    obtain ⟨r, hr, hv⟩ := h4 i j
    rw [key i j hr, hv]

/-- C105: the same for `V_eval_2`. -/
theorem C105_eval2 (hg : Pointwise2 g gf) (hL : Pointwise2 L Lf) (hgc : ContDiff ℝ 2 fun p : ℝ × ℝ => gf p.1 p.2)
    (hLc : ContDiff ℝ 2 fun p : ℝ × ℝ => Lf p.1 p.2) (T : ℝ) {steps max_iter : ℕ} (hs : steps ≠ 0) (hm : max_iter ≠ 0)
    {x0 : Fin p → ℝ} {xf : Fin q → ℝ} {t0 tf : Tens ℝ} (h0 : t0.IsV x0) (hf : tf.IsV xf) :
    ((∃ V, tensVEval2 g L T steps t0 tf max_iter = .ok V) ↔ ∀ i j, ∃ v, vEvalOne2 gf Lf T steps max_iter (x0 i) (xf j) = .ok v) ∧
    ∀ V, tensVEval2 g L T steps t0 tf max_iter = .ok V →
      V.shape = [p, q] ∧ ∀ (i : Fin p) (j : Fin q), vEvalOne2 gf Lf T steps max_iter (x0 i) (xf j) = .ok (V.val [i.val, j.val]) := by
  obtain ⟨k, rfl⟩ := Nat.exists_eq_succ_of_ne_zero hm
  obtain ⟨h1, h2, -⟩ := tensVEval_rep (fc2_prog hg hL T hs) (fun p => (shootF2_smooth hgc hLc T steps p).1)
    (fun p => (shootF2_smooth hgc hLc T steps p).2) h0 hf k
  have key : ∀ (i : Fin p) (j : Fin q) {r}, adLocalEqFast (fun th => (shootF2 gf Lf T steps th ![x0 i, xf j]).1)
      (fun th (_ : Fin 1) => (shootF2 gf Lf T steps th ![x0 i, xf j]).2) 0 (k + 1) = .ok r →
      vEvalOne2 gf Lf T steps (k + 1) (x0 i) (xf j) = .ok (shootF2 gf Lf T steps r.1 ![x0 i, xf j]).1 := by
    intro i j r hr
    rw [vEvalOne2_core]
    exact vEvalCore_ok _ _ (fun th => shootF2_eq T hs th ![x0 i, xf j]) _ hr
  unfold tensVEval2
  rw [add_comm 1 steps]
  refine ⟨⟨fun ⟨V, hV⟩ i j => ?_, fun hall => h1.2 fun i j => ?_⟩, fun V hV => ?_⟩
  · obtain ⟨r, hr, -⟩ := (h2 V hV).2 i j
    exact ⟨_, key i j hr⟩
  · obtain ⟨v, hv⟩ := hall i j
    unfold vEvalOne2 at hv
    obtain ⟨-, -, h3⟩ := bind_ok.1 hv
    obtain ⟨r, h4, -⟩ := bind_ok.1 h3
    have e : ∀ th, pyVal (funAndCon2 gf Lf T (x0 i) (xf j) (List.ofFn th)) = shootF2 gf Lf T steps th ![x0 i, xf j] := fun th => by
      rw [show funAndCon2 gf Lf T (x0 i) (xf j) (List.ofFn th) = _ from shootF2_eq T hs th ![x0 i, xf j]]
      rfl
    simp only [e] at h4
    exact ⟨r, h4⟩
  · obtain ⟨h3, h4⟩ := h2 V hV
    refine ⟨h3, fun i j => ?_⟩
    obtain ⟨r, hr, hv⟩ := h4 i j
    rw [key i j hr, hv]

/-- C105: without iterations the tensor code raises, because it reads the last of no iterates; numpy returns the cost of the zero control
(C76). -/
theorem C105_zero_iter (hg : Pointwise2 g gf) (hL : Pointwise2 L Lf) (hgc : ContDiff ℝ 2 fun p : ℝ × ℝ => gf p.1 p.2)
    (hLc : ContDiff ℝ 2 fun p : ℝ × ℝ => Lf p.1 p.2) (T : ℝ) {steps : ℕ} (hs : steps ≠ 0)
    {x0 : Fin p → ℝ} {xf : Fin q → ℝ} {t0 tf : Tens ℝ} (h0 : t0.IsV x0) (hf : tf.IsV xf) :
    tensVEval1 g L T steps t0 tf 0 = .error .indexError ∧ tensVEval2 g L T steps t0 tf 0 = .error .indexError := by
  constructor
  · exact (tensVEval_rep (fc1_prog hg hL T hs) (fun p => (shootF1_smooth hgc hLc T steps p).1)
      (fun p => (shootF1_smooth hgc hLc T steps p).2) h0 hf 0).2.2
  · unfold tensVEval2
    rw [add_comm 1 steps]
    exact (tensVEval_rep (fc2_prog hg hL T hs) (fun p => (shootF2_smooth hgc hLc T steps p).1)
      (fun p => (shootF2_smooth hgc hLc T steps p).2) h0 hf 0).2.2

/-- C105: for affine dynamics and a quadratic cost `V_eval_1`, `V_eval_2` and `direct_shooting_block_V` on tensors complete for all grids, step
numbers and iteration numbers from one on, and an entry is the least cost of the controls of its parametrisation that meet the end
point. -/
theorem C105_exact {al be ga X U T : ℝ} (hg : Pointwise2 g fun x u => al * x + be * u + ga)
    (hL : Pointwise2 L fun x u => 1 / 2 * X * x ^ 2 + 1 / 2 * U * u ^ 2) (hX : 0 ≤ X) (hU : 0 < U) (hbe : be ≠ 0) (hT : 0 < T)
    {steps max_iter : ℕ} (hs : steps ≠ 0) (hm : max_iter ≠ 0) {x0 : Fin p → ℝ} {xf : Fin q → ℝ} {t0 tf : Tens ℝ} (h0 : t0.IsV x0) (hf : tf.IsV xf) :
    (∃ V, tensVEval1 g L T steps t0 tf max_iter = .ok V ∧ V.shape = [p, q] ∧ ∀ (i : Fin p) (j : Fin q),
      IsLeast {c | ∃ as bs : List ℝ, as.length = steps ∧ bs.length = steps ∧ funAndCon1 (fun x u => al * x + be * u + ga)
        (fun x u => 1 / 2 * X * x ^ 2 + 1 / 2 * U * u ^ 2) T (x0 i) (xf j) as bs = .ok (c, 0)} (V.val [i.val, j.val])) ∧
    (∃ V, tensVEval2 g L T steps t0 tf max_iter = .ok V ∧ V.shape = [p, q] ∧ ∀ (i : Fin p) (j : Fin q),
      IsLeast {c | ∃ th : List ℝ, th.length = steps + 1 ∧ funAndCon2 (fun x u => al * x + be * u + ga)
        (fun x u => 1 / 2 * X * x ^ 2 + 1 / 2 * U * u ^ 2) T (x0 i) (xf j) th = .ok (c, 0)} (V.val [i.val, j.val])) ∧
    ∃ V, tensDirectShootingBlockV g L T steps t0 max_iter = .ok V ∧ V.shape = [p, p] ∧ ∀ i j : Fin p,
      IsLeast {c | ∃ th : List ℝ, th.length = steps + 1 ∧ funAndCon2 (fun x u => al * x + be * u + ga)
        (fun x u => 1 / 2 * X * x ^ 2 + 1 / 2 * U * u ^ 2) T (x0 i) (x0 j) th = .ok (c, 0)} (V.val [i.val, j.val]) := by
  have hgc : ContDiff ℝ 2 fun p : ℝ × ℝ => al * p.1 + be * p.2 + ga := by fun_prop
  have hLc : ContDiff ℝ 2 fun p : ℝ × ℝ => 1 / 2 * X * p.1 ^ 2 + 1 / 2 * U * p.2 ^ 2 := by fun_prop
  have two : ∀ {q : ℕ} {xf : Fin q → ℝ} {tf : Tens ℝ}, tf.IsV xf → ∃ V, tensVEval2 g L T steps t0 tf max_iter = .ok V ∧ V.shape = [p, q] ∧
      ∀ (i : Fin p) (j : Fin q), IsLeast {c | ∃ th : List ℝ, th.length = steps + 1 ∧ funAndCon2 (fun x u => al * x + be * u + ga)
        (fun x u => 1 / 2 * X * x ^ 2 + 1 / 2 * U * u ^ 2) T (x0 i) (xf j) th = .ok (c, 0)} (V.val [i.val, j.val]) := by
    intro q xf tf hf
    obtain ⟨h1, h2⟩ := C105_eval2 hg hL hgc hLc T hs hm h0 hf
    have hex := fun i j => C76_exact2 _ _ al be ga X U T (fun _ _ => rfl) (fun _ _ => rfl) hX hU hbe hT steps hs (x0 i) (xf j)
    obtain ⟨V, hV⟩ := h1.2 fun i j => by
      obtain ⟨v, _, hv, -⟩ := hex i j
      exact ⟨v, hv _ hm⟩
    obtain ⟨h3, h4⟩ := h2 V hV
    refine ⟨V, hV, h3, fun i j => ?_⟩
    obtain ⟨v, th, hv, hl, hfc, hmin⟩ := hex i j
    have := (h4 i j).symm.trans (hv _ hm)
    cases this
    exact ⟨⟨th, hl, hfc⟩, fun c ⟨th', hl', hfc'⟩ => (hmin th' c hl' hfc').1⟩
  refine ⟨?_, two hf, two h0⟩
  obtain ⟨h1, h2⟩ := C105_eval1 hg hL hgc hLc T hs hm h0 hf
  have hex := fun i j => C76_exact1 _ _ al be ga X U T (fun _ _ => rfl) (fun _ _ => rfl) hX hU hbe hT steps hs (x0 i) (xf j)
  obtain ⟨V, hV⟩ := h1.2 fun i j => by
    obtain ⟨v, _, _, hv, -⟩ := hex i j
    exact ⟨v, hv _ hm⟩
  obtain ⟨h3, h4⟩ := h2 V hV
  refine ⟨V, hV, h3, fun i j => ?_⟩
  obtain ⟨v, as, bs, hv, hla, hlb, hfc, hmin⟩ := hex i j
  have := (h4 i j).symm.trans (hv _ hm)
  cases this
  exact ⟨⟨as, bs, hla, hlb, hfc⟩, fun c ⟨as', bs', hla', hlb', hfc'⟩ => (hmin as' bs' c hla' hlb' hfc').1⟩

end Eval

/-- `C105_rk4`: the right hand side `x' = x` on a batch of two vectors. -/
example : ∃ r v, tensRk4 (fun x _ => .ok x) (1 / 2 : ℚ) (tensRowsOf [![1, 2], ![3, 4]]) 0 = .ok r ∧
    r.IsVt (Equiv.refl _) [(![1, 2] : Fin 2 → ℚ), ![3, 4]] v ∧
    ∀ b : Fin 2 → ℚ, rk4TF (fun y _ (_ : Unit) => .ok y) (1 / 2 : ℚ) b 0 () = .ok (v b) :=
  C105_rk4 (G := fun _ y _ => y) (f := fun v => v) (fun x _ _ hx => ⟨x, rfl, hx⟩) _ (tensRowsOf_is [![1, 2], ![3, 4]] fun v => v) 0

/-- `C105_fun1`: two items with two intervals for the dynamics `x u`. -/
example : ∃ cT cv, tensFunAndCon1 (Tens.bin (· * ·)) (Tens.bin fun x u => x ^ 2 + u) (2 : ℚ) (tens1 [1, 2]) (tens1 [0, 5]) (tensRowsOf [![1, 0], ![2, 1]])
      (tensRowsOf [![1, 3], ![0, 1]]) = .ok (cT, cv) ∧
    funAndCon1TF (· * ·) (fun x u => x ^ 2 + u) (2 : ℚ) 2 5 [2, 1] [0, 1] = .ok (cT.val [1], cv.val [1, 0]) := by
  let items : List (ℚ × ℚ × (Fin 2 → ℚ) × (Fin 2 → ℚ)) := [(1, 0, ![1, 0], ![1, 3]), (2, 5, ![2, 1], ![0, 1])]
  obtain ⟨cT, cv, e, -, -, h⟩ := C105_fun1 (C104_pointwise (· * ·) id).1 (C104_pointwise (fun x u => x ^ 2 + u) id).1 (2 : ℚ) (by norm_num) items
    (tens1_is [1, 2]) (tens1_is [0, 5]) (tensRowsOf_is items (·.2.2.1)) (tensRowsOf_is items (·.2.2.2))
  exact ⟨cT, cv, e, h 1 (by decide)⟩

/-- `C105_fun2`: two items with two intervals for the dynamics `x u`. -/
example : ∃ cT cv, tensFunAndCon2 (Tens.bin (· * ·)) (Tens.bin fun x u => x ^ 2 + u) (2 : ℚ) (tens1 [1, 2]) (tens1 [0, 5])
      (tensRowsOf [![1, 0, 3], ![2, 1, 1]]) = .ok (cT, cv) ∧
    funAndCon2TF (· * ·) (fun x u => x ^ 2 + u) (2 : ℚ) 2 5 [2, 1, 1] = .ok (cT.val [1], cv.val [1, 0]) := by
  let items : List (ℚ × ℚ × (Fin 3 → ℚ)) := [(1, 0, ![1, 0, 3]), (2, 5, ![2, 1, 1])]
  obtain ⟨cT, cv, e, -, -, h⟩ := C105_fun2 (C104_pointwise (· * ·) id).1 (C104_pointwise (fun x u => x ^ 2 + u) id).1 (2 : ℚ) (by norm_num) items
    (tens1_is [1, 2]) (tens1_is [0, 5]) (tensRowsOf_is items (·.2.2))
  exact ⟨cT, cv, e, h 1 (by decide)⟩

/-- `C105_lengths`: two values and one slope. -/
example : tensFunAndCon1 (Tens.bin (· * ·)) (Tens.bin (· + ·)) (2 : ℚ) (tens1 [1]) (tens1 [0]) (tensRowsOf [![1, 0]]) (tensRowsOf [![1]]) =
    .error .valueError := C105_lengths (N := 2) (N' := 1) 2 (by norm_num) (by norm_num) _ _ _ _ rfl rfl

/-- `C105_eval1`, `C105_eval2`, `C105_zero_iter`, `C105_exact`: the dynamics `x + u` and the cost `(x² + u²) / 2` with two steps and ten
iterations on grids of two and three points. -/
example : ∃ V, tensVEval1 (Tens.bin fun x u => 1 * x + 1 * u + 0) (Tens.bin fun x u => 1 / 2 * 1 * x ^ 2 + 1 / 2 * 1 * u ^ 2) (1 : ℝ) 2
    (tensV ![0, 1]) (tensV ![0, 1, 2]) 10 = .ok V ∧ V.shape = [2, 3] := by
  obtain ⟨⟨V, h1, h2, -⟩, -⟩ := C105_exact (al := 1) (be := 1) (ga := 0) (X := 1) (U := 1) (T := 1) (C104_pointwise _ id).1 (C104_pointwise _ id).1
    (by norm_num) (by norm_num) (by norm_num) (by norm_num) (steps := 2) (max_iter := 10) (by norm_num) (by norm_num)
    (tensV_is ![0, 1]) (tensV_is ![0, 1, 2])
  exact ⟨V, h1, h2⟩

end Verif
