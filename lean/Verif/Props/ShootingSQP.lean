import Verif.Proof.ShootingTF
import Verif.Proof.AD
import Verif.Props.Shooting

/-! Property C76: the conditional value function by direct shooting and the derivatives used in it. -/

namespace Verif

open Matrix

section AD
variable {n m : ℕ}

theorem forall₂_map_eq' {α β γ : Type} {g : α → β → Prop} {f : α → γ} {f' : β → γ} (hg : ∀ a b, g a b → f' b = f a) :
    ∀ {l : List α} {l' : List β}, List.Forall₂ g l l' → l'.map f' = l.map f
  | _, _, .nil => rfl
  | _, _, .cons h1 h2 => by simp [hg _ _ h1, forall₂_map_eq' hg h2]

theorem adLag_dlag (fn : (Fin n → ℝ) → ℝ) (con : (Fin n → ℝ) → Fin m → ℝ) (hf : ContDiff ℝ 2 fn) (hc : ContDiff ℝ 2 con)
    (y : Fin n → ℝ) (lam : Fin m → ℝ) : adGrad (fun x => fn x - lam ⬝ᵥ con x) y = (NLP.ofFun fn con).dlag y lam := by
  have hdf : Differentiable ℝ fn := hf.differentiable (by norm_num)
  have hdc : Differentiable ℝ con := hc.differentiable (by norm_num)
  rw [adGrad_lag (hdf y) (hdc y)]
  unfold NLP.dlag NLP.ofFun
  dsimp only
  congr 1
  funext j
  rw [Finset.sum_apply, mulVec, dotProduct]
  refine Finset.sum_congr rfl fun i _ => ?_
  rw [adJac_row (hdc y), Pi.smul_apply, smul_eq_mul, mul_comm]
  rfl

/-- C76 (derivatives): for twice continuously differentiable functions the step of `local_eq_fast` with the derivatives computed
by jax is the step of the model with `dfun`, `dcon`, `hfun`, `hcon` of the functions; these are the derivatives along every
direction, and the second derivative of the Lagrangian is symmetric. -/
theorem C76_ad (fn : (Fin n → ℝ) → ℝ) (con : (Fin n → ℝ) → Fin m → ℝ) (hf : ContDiff ℝ 2 fn) (hc : ContDiff ℝ 2 con)
    (x : Fin n → ℝ) (lam : Fin m → ℝ) :
    adLocalStep fn con x lam = (NLP.ofFun fn con).localStep l2norm x lam ∧
    (∀ v, HasDerivAt (fun t : ℝ => fn (x + t • v)) ((NLP.ofFun fn con).dfun x ⬝ᵥ v) 0) ∧
    (∀ v, HasDerivAt (fun t : ℝ => con (x + t • v)) ((NLP.ofFun fn con).dcon x *ᵥ v) 0) ∧
    (∀ v, HasDerivAt (fun t : ℝ => fn (x + t • v) - lam ⬝ᵥ con (x + t • v)) ((NLP.ofFun fn con).dlag x lam ⬝ᵥ v) 0) ∧
    (∀ v, HasDerivAt (fun t : ℝ => (NLP.ofFun fn con).dlag (x + t • v) lam) ((NLP.ofFun fn con).hlag x lam *ᵥ v) 0) ∧
    ((NLP.ofFun fn con).hlag x lam)ᵀ = (NLP.ofFun fn con).hlag x lam := by
  have hdf : Differentiable ℝ fn := hf.differentiable (by norm_num)
  have hdc : Differentiable ℝ con := hc.differentiable (by norm_num)
  have hci : ∀ i, ContDiff ℝ 2 fun x => con x i := fun i => contDiff_pi.1 hc i
  have hlc : ContDiff ℝ 2 fun x => fn x - lam ⬝ᵥ con x := by
    refine hf.sub ?_
    show ContDiff ℝ 2 fun x => ∑ i, lam i * con x i
    exact ContDiff.sum fun i _ => contDiff_const.mul (hci i)
  have hline : ∀ v : Fin n → ℝ, HasDerivAt (fun t : ℝ => x + t • v) v 0 := fun v => by
    have := ((hasDerivAt_id (0 : ℝ)).smul_const v).const_add x
    simpa using this
  have hx : ∀ v : Fin n → ℝ, x + (0 : ℝ) • v = x := fun v => by simp
  have hlag : ∀ y, adGrad (fun x => fn x - lam ⬝ᵥ con x) y = (NLP.ofFun fn con).dlag y lam := fun y => adLag_dlag fn con hf hc y lam
  have hhess : adHess (fun x => fn x - lam ⬝ᵥ con x) x = (NLP.ofFun fn con).hlag x lam := adHess_lag hf hc lam x
  have hgen : ∀ (F : (Fin n → ℝ) → ℝ), Differentiable ℝ F → ∀ v, HasDerivAt (fun t : ℝ => F (x + t • v)) (adGrad F x ⬝ᵥ v) 0 := by
    intro F hF v
    rw [← fderiv_eq_sum]
    have := (hF (x + (0 : ℝ) • v)).hasFDerivAt.comp_hasDerivAt (0 : ℝ) (hline v)
    rwa [hx] at this
  have hgenJ : ∀ {k : ℕ} (F : (Fin n → ℝ) → Fin k → ℝ), Differentiable ℝ F → ∀ v,
      HasDerivAt (fun t : ℝ => F (x + t • v)) (adJac F x *ᵥ v) 0 := by
    intro k F hF v
    rw [← fderivJ_eq_sum]
    have := (hF (x + (0 : ℝ) • v)).hasFDerivAt.comp_hasDerivAt (0 : ℝ) (hline v)
    rwa [hx] at this
  refine ⟨?_, hgen fn hdf, hgenJ con hdc, ?_, ?_, ?_⟩
  · unfold adLocalStep NLP.localStep
    dsimp only
    rw [hlag, hhess]
    rfl
  · intro v
    rw [← hlag]
    exact hgen _ (hlc.differentiable (by norm_num)) v
  · intro v
    rw [← hhess]
    have e : (fun t : ℝ => (NLP.ofFun fn con).dlag (x + t • v) lam) = fun t : ℝ => adGrad (fun x => fn x - lam ⬝ᵥ con x) (x + t • v) := by
      funext t
      rw [hlag]
    rw [e]
    exact hgenJ _ (adGrad_diff hlc) v
  · rw [← hhess]
    exact adHess_symm hlc x

/-- C76 (criterion): the number that a step returns besides the new point is the Euclidean norm of the gradient of the Lagrangian at
the old point; on a batch in TensorFlow it is the norm of the gradients of all elements together. -/
theorem C76_crit (fn : (Fin n → ℝ) → ℝ) (con : (Fin n → ℝ) → Fin m → ℝ) (hf : ContDiff ℝ 2 fn) (hc : ContDiff ℝ 2 con)
    (x x' : Fin n → ℝ) (lam lam' : Fin m → ℝ) (c : ℝ) (h : adLocalStep fn con x lam = .ok (x', lam', c)) :
    0 ≤ c ∧ c ^ 2 = (NLP.ofFun fn con).dlag x lam ⬝ᵥ (NLP.ofFun fn con).dlag x lam := by
  rw [(C76_ad fn con hf hc x lam).1] at h
  unfold NLP.localStep at h
  dsimp only at h
  obtain ⟨r, -, h2⟩ := bind_ok.1 h
  simp only [pure, Except.pure, Except.ok.injEq, Prod.mk.injEq] at h2
  obtain ⟨-, -, rfl⟩ := h2
  refine ⟨Real.sqrt_nonneg _, ?_⟩
  unfold l2norm
  rw [Real.sq_sqrt (Finset.sum_nonneg fun i _ => sq_nonneg _)]
  exact Finset.sum_congr rfl fun i _ => sq _

/-- A step of minimising `x ^ 2 / 2` subject to `x = 1` from any point and multiplier. -/
example (x : Fin 1 → ℝ) (lam : Fin 1 → ℝ) : ∃ x' lam' c,
    adLocalStep (fun x : Fin 1 → ℝ => 1 / 2 * (x 0 * x 0)) (fun x (_ : Fin 1) => x 0 - 1) x lam = .ok (x', lam', c) := by
  obtain ⟨ths, -, -, -, h⟩ := vEvalCore_quad (N := 1) (fun x => .ok (1 / 2 * (x 0 * x 0), x 0 - 1)) (fun x => (1 / 2 * (x 0 * x 0), x 0 - 1))
    (fun _ => rfl) 1 0 0 1 (fun _ => -1) (by simp) (fun v hv => by
      have h0 : v 0 ≠ 0 := fun h => hv (funext fun i => by fin_cases i; exact h)
      simpa [dotProduct] using h0)
    (by intro th; simp [dotProduct]) (by intro th; funext i; fin_cases i; simp [sub_eq_add_neg]) (by intro v hv; simpa using hv)
  obtain ⟨lam', c, h⟩ := h x lam
  exact ⟨_, _, _, h⟩

/-- C76 (criterion on a batch): see `C76_crit`. -/
theorem C76_crit_tf {P : Type} (fn : (Fin n → ℝ) → P → ℝ) (con : (Fin n → ℝ) → P → Fin m → ℝ)
    (hf : ∀ p, ContDiff ℝ 2 fun x => fn x p) (hc : ∀ p, ContDiff ℝ 2 fun x => con x p) (pars : List P)
    (xs ys : List ((Fin n → ℝ) × (Fin m → ℝ))) (c0 c : ℝ) (h : tfSqpBody fn con pars (xs, c0) = .ok (ys, c)) :
    0 ≤ c ∧ c ^ 2 = ((xs.zip pars).map fun a =>
      let g := (NLP.ofFun (fun x => fn x a.2) (fun x => con x a.2)).dlag a.1.1 a.1.2
      g ⬝ᵥ g).sum := by
  unfold tfSqpBody at h
  dsimp only at h
  obtain ⟨rows, h1, h2⟩ := bind_ok.1 h
  simp only [pure, Except.pure, Except.ok.injEq, Prod.mk.injEq] at h2
  obtain ⟨-, rfl⟩ := h2
  refine ⟨Real.sqrt_nonneg _, ?_⟩
  rw [Real.sq_sqrt (List.sum_nonneg fun a ha => by
    obtain ⟨r, -, rfl⟩ := List.mem_map.1 ha
    exact Finset.sum_nonneg fun i _ => sq_nonneg _)]
  congr 1
  rw [mapM_ok_iff] at h1
  refine forall₂_map_eq' ?_ h1
  intro a b hab
  obtain ⟨r, -, h3⟩ := bind_ok.1 hab
  simp only [pure, Except.pure, Except.ok.injEq] at h3
  subst h3
  dsimp only [lagValueGradHess]
  have := adLag_dlag _ _ (hf a.2) (hc a.2) a.1.1 a.1.2
  rw [← this]
  exact Finset.sum_congr rfl fun i _ => sq _

/-- `C76_ad`: a product and a sum of squares as the constraint. -/
example : ContDiff ℝ 2 (fun x : Fin 2 → ℝ => x 0 * x 1) ∧ ContDiff ℝ 2 (fun (x : Fin 2 → ℝ) (_ : Fin 1) => x 0 ^ 2 + x 1 ^ 2 - 1) := by
  constructor
  · exact (contDiff_apply ℝ ℝ 0).mul (contDiff_apply ℝ ℝ 1)
  · rw [contDiff_pi]
    intro _
    exact (((contDiff_apply ℝ ℝ 0).pow 2).add ((contDiff_apply ℝ ℝ 1).pow 2)).sub contDiff_const

end AD

section Exact
variable (g L : ℝ → ℝ → ℝ) (al be ga X U T : ℝ) (hg : ∀ x u, g x u = al * x + be * u + ga)
  (hL : ∀ x u, L x u = 1 / 2 * X * x ^ 2 + 1 / 2 * U * u ^ 2) (hX : 0 ≤ X) (hU : 0 < U) (hbe : be ≠ 0) (hT : 0 < T)
include hg hL hX hU hbe hT

/-- C76 (first method): for affine dynamics and a quadratic cost an entry of the matrix of `V_eval_1` is the minimum of the
shooting cost over all piecewise linear controls that meet the final state, this control is unique, and every number of
iterations from one on gives the same value. -/
theorem C76_exact1 (steps : ℕ) (hs : steps ≠ 0) (x0 xf : ℝ) :
    ∃ (V : ℝ) (as bs : List ℝ), (∀ max_iter ≠ 0, vEvalOne1 g L T steps max_iter x0 xf = .ok V) ∧
      as.length = steps ∧ bs.length = steps ∧ funAndCon1 g L T x0 xf as bs = .ok (V, 0) ∧
      ∀ (as' bs' : List ℝ) (c : ℝ), as'.length = steps → bs'.length = steps → funAndCon1 g L T x0 xf as' bs' = .ok (c, 0) →
        V ≤ c ∧ (c = V → as' = as ∧ bs' = bs) := by
  obtain ⟨k, rfl⟩ := Nat.exists_eq_succ_of_ne_zero hs
  obtain ⟨G, c, d, A, b, hG, hP, hf, hc, hA⟩ := shoot_quad1 hg hL hX hU hbe hT k x0 xf
  obtain ⟨V, ths, h1, h2, h3⟩ := vEvalCore_quad' _ _ (funAndCon1_theta g L T x0 xf (k + 1) hs) G c d A b hG hP hf hc hA
  refine ⟨V, thetaEven ths, thetaOdd ths, ?_, by simp [thetaEven], by simp [thetaOdd], h1, ?_⟩
  · intro max_iter hm
    obtain ⟨j, rfl⟩ := Nat.exists_eq_succ_of_ne_zero hm
    exact h3 j
  · intro as' bs' c' ha hb hfc
    obtain ⟨th, rfl, rfl⟩ := theta_of_lists (k + 1) as' bs' ha hb
    obtain ⟨h5, h6⟩ := h2 th c' hfc
    refine ⟨h5, fun h => ?_⟩
    rw [h6 h]
    exact ⟨rfl, rfl⟩

/-- C76 (second method): the same for `V_eval_2` and the continuous piecewise linear controls. -/
theorem C76_exact2 (steps : ℕ) (hs : steps ≠ 0) (x0 xf : ℝ) :
    ∃ (V : ℝ) (th : List ℝ), (∀ max_iter ≠ 0, vEvalOne2 g L T steps max_iter x0 xf = .ok V) ∧
      th.length = steps + 1 ∧ funAndCon2 g L T x0 xf th = .ok (V, 0) ∧
      ∀ (th' : List ℝ) (c : ℝ), th'.length = steps + 1 → funAndCon2 g L T x0 xf th' = .ok (c, 0) → V ≤ c ∧ (c = V → th' = th) := by
  obtain ⟨k, rfl⟩ := Nat.exists_eq_succ_of_ne_zero hs
  obtain ⟨G, c, d, A, b, hG, hP, hf, hc, hA⟩ := shoot_quad2 hg hL hX hU hbe hT k x0 xf
  obtain ⟨V, ths, h1, h2, h3⟩ := vEvalCore_quad' _ _ (funAndCon2_theta g L T x0 xf (k + 1) hs) G c d A b hG hP hf hc hA
  refine ⟨V, List.ofFn ths, ?_, by simp, h1, ?_⟩
  · intro max_iter hm
    obtain ⟨j, rfl⟩ := Nat.exists_eq_succ_of_ne_zero hm
    exact h3 j
  · intro th' c' hl hfc
    obtain ⟨th, rfl⟩ : ∃ th : Fin (k + 1 + 1) → ℝ, List.ofFn th = th' :=
      ⟨fun i => th'[i]'(by omega), by
        apply List.ext_getElem (by rw [List.length_ofFn, hl])
        intro i h1 h2
        rw [List.getElem_ofFn]
        rfl⟩
    obtain ⟨h5, h6⟩ := h2 th c' hfc
    exact ⟨h5, fun h => by rw [h6 h]⟩

/-- C76 (order): the value of the second method is at least that of the first. -/
theorem C76_order (steps max_iter max_iter' : ℕ) (hs : steps ≠ 0) (hm : max_iter ≠ 0) (hm' : max_iter' ≠ 0) (x0 xf : ℝ) :
    ∃ V1 V2, vEvalOne1 g L T steps max_iter x0 xf = .ok V1 ∧ vEvalOne2 g L T steps max_iter' x0 xf = .ok V2 ∧ V1 ≤ V2 := by
  obtain ⟨V1, as, bs, h1, -, -, -, h2⟩ := C76_exact1 g L al be ga X U T hg hL hX hU hbe hT steps hs x0 xf
  obtain ⟨V2, th, h3, h4, h5, -⟩ := C76_exact2 g L al be ga X U T hg hL hX hU hbe hT steps hs x0 xf
  refine ⟨V1, V2, h1 _ hm, h3 _ hm', ?_⟩
  match th with
  | [] => simp at h4
  | a :: t =>
    have hlt : t.length = steps := by simpa using h4
    have ht : t ≠ [] := by rintro rfl; exact hs hlt.symm
    rw [C59_parametrisations g L T x0 xf a (List.ofFn fun i : Fin t.length => a + T / t.length * (t.take i).sum) t ht (by simp)
      (by intro i hi; simp)] at h5
    exact (h2 _ _ V2 (by simp [hlt]) hlt h5).1

end Exact

/-- `C76_exact1`, `C76_exact2`, `C76_order`: the dynamics `x + u` of `linear_model` with the weights `1`. -/
example : (∀ x u : ℝ, x + u = 1 * x + 1 * u + 0) ∧
    (∀ x u : ℝ, (1 * x ^ 2 + 1 * u ^ 2) / 2 = 1 / 2 * 1 * x ^ 2 + 1 / 2 * 1 * u ^ 2) ∧ (0 : ℝ) < 1 ∧ (1 : ℝ) ≠ 0 := by
  refine ⟨fun x u => by ring, fun x u => by ring, by norm_num, by norm_num⟩

/-- C76 (the methods differ): for `x' = u`, the cost `(x² + u²) / 2`, `T = 2`, two steps, from `1` to `0`, the second method
gives a larger value than the first. -/
theorem C76_methods : ∃ V1 V2, (∀ max_iter ≠ 0, vEvalOne1 (fun _ u => u) (fun x u => 1 / 2 * 1 * x ^ 2 + 1 / 2 * 1 * u ^ 2) 2 2 max_iter 1 0 = .ok V1) ∧
    (∀ max_iter ≠ 0, vEvalOne2 (fun _ u => u) (fun x u => 1 / 2 * 1 * x ^ 2 + 1 / 2 * 1 * u ^ 2) 2 2 max_iter 1 0 = .ok V2) ∧ V1 < V2 := by
  obtain ⟨V1, as, bs, h1, -, -, -, h2⟩ := C76_exact1 (fun _ u => u) (fun x u => 1 / 2 * 1 * x ^ 2 + 1 / 2 * 1 * u ^ 2) 0 1 0 1 1 2
    (fun x u => by ring) (fun x u => rfl) (by norm_num) (by norm_num) (by norm_num) (by norm_num) 2 (by norm_num) 1 0
  obtain ⟨V2, th, h3, h4, h5, -⟩ := C76_exact2 (fun _ u => u) (fun x u => 1 / 2 * 1 * x ^ 2 + 1 / 2 * 1 * u ^ 2) 0 1 0 1 1 2
    (fun x u => by ring) (fun x u => rfl) (by norm_num) (by norm_num) (by norm_num) (by norm_num) 2 (by norm_num) 1 0
  refine ⟨V1, V2, h1, h3, ?_⟩
  have hV1 : V1 ≤ 9881 / 18960 := by
    refine (h2 [-372 / 395, -153 / 395] [209 / 395, 51 / 395] (9881 / 18960) rfl rfl ?_).1
    rw [funAndCon1_eq _ _ _ _ _ _ _ (List.cons_ne_nil _ _) (by rfl), Except.ok.injEq]
    simp only [shoot1, shootStep, List.zip_cons_cons, List.zip_nil_right, List.foldl_cons, List.foldl_nil, List.length_cons, List.length_nil]
    norm_num
  match th, h4 with
  | [a, b, c], _ =>
    rw [C59_parametrisations _ _ 2 1 0 a [a, a + b] [b, c] (by simp) rfl (by
      intro i hi
      match i, hi with
      | 0, _ => simp
      | 1, _ => simp), funAndCon1_eq _ _ _ _ _ _ _ (List.cons_ne_nil _ _) (by rfl), Except.ok.injEq, Prod.mk.injEq] at h5
    obtain ⟨h6, h7⟩ := h5
    simp only [shoot1, shootStep, List.zip_cons_cons, List.zip_nil_right, List.foldl_cons, List.foldl_nil, List.length_cons,
      List.length_nil] at h6 h7
    norm_num at h6 h7
    have hc : c = -2 - 4 * a - 3 * b := by linarith
    subst hc
    refine lt_of_le_of_lt hV1 ?_
    rw [← h6]
    nlinarith [sq_nonneg (a + 109 / 115), sq_nonneg (b - 63 / 115), sq_nonneg (a + 109 / 115 + 33 / 56 * (b - 63 / 115))]

/-- C76 (errors): without steps the entries are errors, and without iterations the value is the cost of the control `0`, whatever
the final state is. -/
theorem C76_degenerate (g L : ℝ → ℝ → ℝ) (T : ℝ) (steps max_iter : ℕ) (x0 xf : ℝ) :
    vEvalOne1 g L T 0 max_iter x0 xf = .error .zeroDivisionError ∧
    vEvalOne2 g L T 0 max_iter x0 xf = .error .zeroDivisionError ∧
    (steps ≠ 0 → ∃ c d, funAndCon1 g L T x0 xf (List.replicate steps 0) (List.replicate steps 0) = .ok (c, d) ∧
      vEvalOne1 g L T steps 0 x0 xf = .ok c ∧ vEvalOne2 g L T steps 0 x0 xf = .ok c) := by
  refine ⟨rfl, rfl, fun hs => ?_⟩
  have h1 := funAndCon1_eq g L T x0 xf (List.replicate steps 0) (List.replicate steps 0)
    (by intro h; have := congrArg List.length h; simp at this; exact hs this) (by simp)
  refine ⟨_, _, h1, ?_, ?_⟩
  · rw [vEvalOne1_core]
    refine vEvalCore_zero _ (d := (shoot1 g L (T / (List.replicate steps (0 : ℝ)).length)
      ((List.replicate steps (0 : ℝ)).zip (List.replicate steps 0)) (x0, 0)).1 - xf) ?_
    rw [← h1]
    unfold thetaEven thetaOdd
    simp only [Pi.zero_apply, List.ofFn_const]
  · rw [vEvalOne2_core]
    refine vEvalCore_zero _ (d := (shoot1 g L (T / (List.replicate steps (0 : ℝ)).length)
      ((List.replicate steps (0 : ℝ)).zip (List.replicate steps 0)) (x0, 0)).1 - xf) ?_
    rw [← h1, ← C59_parametrisations g L T x0 xf 0 (List.replicate steps 0) (List.replicate steps 0)
      (by intro h; have := congrArg List.length h; simp at this; exact hs this) rfl
      (by intro i hi; simp), List.ofFn_succ]
    simp only [Pi.zero_apply, List.ofFn_const]

/-- C76 (grid): the entry `(i, j)` of the matrix belongs to the initial state `grid[i]`, the final state `grid[j]` and the block
length `T / blocks`; every method other than `2` is the first one. -/
theorem C76_grid {n : ℕ} (M : HJB n ℝ) (method : ℤ) (max_iter : ℕ) :
    (M.blocks = 0 → M.directShootingValueFunction method max_iter = .error .zeroDivisionError) ∧
    (M.blocks ≠ 0 → ∃ V, M.directShootingValueFunction method max_iter = .ok V ∧ V.length = n ∧ (∀ r ∈ V, r.length = n) ∧
      ∀ i j : Fin n, ∃ r : List (Py ℝ), V[(i : ℕ)]? = some r ∧ r[(j : ℕ)]? = some
        (if method = 2 then vEvalOne2 M.f M.L (M.T / M.blocks) M.steps max_iter (M.grid i) (M.grid j)
          else vEvalOne1 M.f M.L (M.T / M.blocks) M.steps max_iter (M.grid i) (M.grid j))) := by
  constructor
  · intro h
    unfold HJB.directShootingValueFunction
    rw [if_pos h]
  · intro h
    unfold HJB.directShootingValueFunction
    rw [if_neg h]
    dsimp only
    by_cases h2 : method = 2
    · rw [if_neg (by omega), if_pos h2]
      obtain ⟨h3, h4, h5⟩ := C59_grid (vEvalOne2 M.f M.L (M.T / M.blocks) M.steps max_iter) (List.ofFn M.grid) (List.ofFn M.grid)
      refine ⟨_, rfl, by rw [vEval2, h3]; simp, fun r hr => by rw [h4 r hr]; simp, fun i j => ?_⟩
      rw [if_pos h2]
      exact h5 i j _ _ (by simp) (by simp)
    · obtain ⟨h3, h4, h5⟩ := C59_grid (vEvalOne1 M.f M.L (M.T / M.blocks) M.steps max_iter) (List.ofFn M.grid) (List.ofFn M.grid)
      rw [if_neg h2, ite_self]
      refine ⟨_, rfl, by rw [vEval1, h3]; simp, fun r hr => by rw [h4 r hr]; simp, fun i j => ?_⟩
      rw [if_neg h2]
      exact h5 i j _ _ (by simp) (by simp)

/-- C76 (TensorFlow): with at least one iteration the batched TensorFlow functions return a matrix exactly if all entries of the
numpy matrix are finite, and then it is the numpy matrix; `direct_shooting_block_V` is the second method. -/
theorem C76_tf (g L : ℝ → ℝ → ℝ) (T : ℝ) (steps max_iter : ℕ) (hm : max_iter ≠ 0) (x0_grid xf_grid : List ℝ) (V : List (List ℝ)) :
    (vEval1TF g L T steps x0_grid xf_grid max_iter = .ok V ↔
      vEval1 g L T steps x0_grid xf_grid max_iter = V.map fun r => r.map Except.ok) ∧
    (vEval2TF g L T steps x0_grid xf_grid max_iter = .ok V ↔
      vEval2 g L T steps x0_grid xf_grid max_iter = V.map fun r => r.map Except.ok) ∧
    (directShootingBlockV g L T steps x0_grid max_iter = .ok V ↔
      vEval2 g L T steps x0_grid x0_grid max_iter = V.map fun r => r.map Except.ok) := by
  obtain ⟨k, rfl⟩ := Nat.exists_eq_succ_of_ne_zero hm
  have h2 : ∀ xfs, vEval2TF g L T steps x0_grid xfs (k + 1) = .ok V ↔
      vEval2 g L T steps x0_grid xfs (k + 1) = V.map fun r => r.map Except.ok := by
    intro xfs
    unfold vEval2TF
    rw [vEvalTF_ok]
    simp only [funAndCon2TF_eq]
    rfl
  refine ⟨?_, h2 xf_grid, h2 x0_grid⟩
  unfold vEval1TF
  rw [vEvalTF_ok]
  simp only [funAndCon1TF_eq]
  rfl

/-- C76 (TensorFlow, no iterations): unlike numpy, TensorFlow raises. -/
theorem C76_tf_zero (g L : ℝ → ℝ → ℝ) (T : ℝ) (steps : ℕ) (hs : steps ≠ 0) (x0_grid xf_grid : List ℝ) :
    vEval1TF g L T steps x0_grid xf_grid 0 = .error .indexError ∧
    vEval2TF g L T steps x0_grid xf_grid 0 = .error .indexError := by
  have key : ∀ {N : ℕ} (fc : (Fin N → ℝ) → ℝ × ℝ → Py (ℝ × ℝ)), (∀ p, ∃ r, fc 0 p = .ok r) →
      vEvalTF fc x0_grid xf_grid 0 = .error .indexError := by
    intro N fc h
    unfold vEvalTF
    obtain ⟨us, h1, -⟩ := mapM_total (Q := fun _ => True) (f := fun p => fc 0 p) (l := meshPars x0_grid xf_grid)
      (fun p _ => by obtain ⟨r, hr⟩ := h p; exact ⟨r, hr, trivial⟩)
    dsimp only
    rw [mapM_ok_iff.2 h1]
    rfl
  constructor
  · refine key _ fun p => ?_
    rw [funAndCon1TF_eq, funAndCon1_theta g L T p.1 p.2 steps hs]
    exact ⟨_, rfl⟩
  · refine key _ fun p => ?_
    rw [funAndCon2TF_eq, funAndCon2_theta g L T p.1 p.2 steps hs]
    exact ⟨_, rfl⟩

/-- `C76_tf_zero`, `C76_degenerate`: one step. -/
example : (1 : ℕ) ≠ 0 := by norm_num

/-- `C76_tf`: with one step on a grid of two points both sides have a value. -/
example : ∃ V, vEval2TF (fun x u => x + u) (fun x u => 1 / 2 * 1 * x ^ 2 + 1 / 2 * 1 * u ^ 2) 1 1 [0, 1] [0, 1] 1 = .ok V := by
  have h : ∀ x0 xf, ∃ v, vEvalOne2 (fun x u => x + u) (fun x u => 1 / 2 * 1 * x ^ 2 + 1 / 2 * 1 * u ^ 2) 1 1 1 x0 xf = .ok v := by
    intro x0 xf
    obtain ⟨V, _, h, -⟩ := C76_exact2 (fun x u => x + u) (fun x u => 1 / 2 * 1 * x ^ 2 + 1 / 2 * 1 * u ^ 2) 1 1 0 1 1 1
      (fun x u => by ring) (fun x u => rfl) (by norm_num) (by norm_num) (by norm_num) (by norm_num) 1 (by norm_num) x0 xf
    exact ⟨V, h 1 (by norm_num)⟩
  choose w hw using h
  refine ⟨[[w 0 0, w 0 1], [w 1 0, w 1 1]], (C76_tf _ _ 1 1 1 (by norm_num) [0, 1] [0, 1] _).2.1.2 ?_⟩
  rw [vEval2, gridEval_eq]
  simp only [List.map_cons, List.map_nil, hw]

end Verif
