import Verif.Proof.ShootingLQ
import Verif.Proof.CLQTTFPar
import Verif.Proof.PyRel

/-! The conditional value function by direct shooting for linear dynamics and quadratic costs; TensorFlow and numpy versions. -/

namespace Verif

open Matrix

variable {N : ℕ}

theorem IsAff.list_sum : ∀ (fs : List ((Fin N → ℝ) → ℝ)), (∀ f ∈ fs, IsAff f) → IsAff fun th => (fs.map fun f => f th).sum
  | [], _ => by simpa using IsAff.const 0
  | f :: fs, h => by
    simp only [List.map_cons, List.sum_cons]
    exact (h f (by simp)).add (IsAff.list_sum fs fun f' hf' => h f' (by simp [hf']))

/-! ### First parametrisation -/

/-- The values and slopes of the control on the intervals as functions of the parameters. -/
def par1 (steps : ℕ) : List (((Fin (2 * steps) → ℝ) → ℝ) × ((Fin (2 * steps) → ℝ) → ℝ)) :=
  List.ofFn fun i : Fin steps => (fun th => th ⟨2 * i, by omega⟩, fun th => th ⟨2 * i + 1, by omega⟩)

theorem par1_map (steps : ℕ) (th : Fin (2 * steps) → ℝ) :
    (par1 steps).map (fun p => (p.1 th, p.2 th)) = (thetaEven th).zip (thetaOdd th) := by
  unfold par1 thetaEven thetaOdd
  apply List.ext_getElem
  · simp
  · intro i h1 h2
    simp

theorem theta_of_lists (steps : ℕ) (as bs : List ℝ) (ha : as.length = steps) (hb : bs.length = steps) :
    ∃ th : Fin (2 * steps) → ℝ, thetaEven th = as ∧ thetaOdd th = bs := by
  refine ⟨fun j => if j.1 % 2 = 0 then as.getD (j.1 / 2) 0 else bs.getD (j.1 / 2) 0, ?_, ?_⟩
  · apply List.ext_getElem (by simp [thetaEven, ha])
    intro i h1 h2
    simp [thetaEven, h2]
  · apply List.ext_getElem (by simp [thetaOdd, hb])
    intro i h1 h2
    have e1 : (2 * i + 1) % 2 = 1 := by omega
    have e2 : (2 * i + 1) / 2 = i := by omega
    simp [thetaOdd, h2, e1, e2]

theorem theta_ext (steps : ℕ) (th th' : Fin (2 * steps) → ℝ) (h1 : thetaEven th = thetaEven th') (h2 : thetaOdd th = thetaOdd th') :
    th = th' := by
  unfold thetaEven at h1
  unfold thetaOdd at h2
  rw [List.ofFn_inj] at h1 h2
  funext j
  rcases Nat.even_or_odd' j.1 with ⟨i, hi | hi⟩
  · have := congrFun h1 ⟨i, by omega⟩
    have e : j = ⟨2 * i, by omega⟩ := Fin.ext hi
    rw [e]; exact this
  · have := congrFun h2 ⟨i, by omega⟩
    have e : j = ⟨2 * i + 1, by omega⟩ := Fin.ext hi
    rw [e]; exact this

theorem funAndCon1_theta (g L : ℝ → ℝ → ℝ) (T x0 xf : ℝ) (steps : ℕ) (hs : steps ≠ 0) (th : Fin (2 * steps) → ℝ) :
    funAndCon1 g L T x0 xf (thetaEven th) (thetaOdd th) =
      .ok ((shoot1 g L (T / steps) ((par1 steps).map fun p => (p.1 th, p.2 th)) (x0, 0)).2,
        (shoot1 g L (T / steps) ((par1 steps).map fun p => (p.1 th, p.2 th)) (x0, 0)).1 - xf) := by
  have hl : (thetaEven th).length = steps := by simp [thetaEven]
  have hl' : (thetaOdd th).length = steps := by simp [thetaOdd]
  rw [funAndCon1_eq g L T x0 xf _ _ (by intro h; rw [h] at hl; exact hs hl.symm) (by rw [hl, hl']), hl, par1_map]

/-! ### Second parametrisation -/

/-- The values and slopes of the continuous control on the intervals as functions of the parameters. -/
def par2 (steps : ℕ) (dt : ℝ) : List (((Fin (steps + 1) → ℝ) → ℝ) × ((Fin (steps + 1) → ℝ) → ℝ)) :=
  List.ofFn fun i : Fin steps =>
    (fun th => th 0 + dt * ((List.ofFn fun j : Fin steps => th j.succ).take i).sum, fun th => th i.succ)

theorem funAndCon2_theta (g L : ℝ → ℝ → ℝ) (T x0 xf : ℝ) (steps : ℕ) (hs : steps ≠ 0) (th : Fin (steps + 1) → ℝ) :
    funAndCon2 g L T x0 xf (List.ofFn th) =
      .ok ((shoot1 g L (T / steps) ((par2 steps (T / steps)).map fun p => (p.1 th, p.2 th)) (x0, 0)).2,
        (shoot1 g L (T / steps) ((par2 steps (T / steps)).map fun p => (p.1 th, p.2 th)) (x0, 0)).1 - xf) := by
  rw [List.ofFn_succ]
  have hb : (List.ofFn fun i : Fin steps => th i.succ) ≠ [] := by
    intro h
    have := congrArg List.length h
    simp at this
    exact hs this
  have hlb : (List.ofFn fun i : Fin steps => th i.succ).length = steps := by simp
  rw [funAndCon2_eq g L T x0 xf (th 0)
    (List.ofFn fun i : Fin steps => th 0 + T / steps * ((List.ofFn fun j : Fin steps => th j.succ).take i).sum) _ hb (by simp)
    (by intro i hi; rw [hlb]; simp),
    funAndCon1_eq g L T x0 xf _ _ (by intro h; have := congrArg List.length h; simp at this; exact hs this) (by simp)]
  have e : (List.ofFn fun i : Fin steps => th 0 + T / steps * ((List.ofFn fun j : Fin steps => th j.succ).take i).sum).zip
      (List.ofFn fun i : Fin steps => th i.succ) = (par2 steps (T / steps)).map fun p => (p.1 th, p.2 th) := by
    unfold par2
    apply List.ext_getElem
    · simp
    · intro i h1 h2
      simp
  rw [e, List.length_ofFn]

/-! ### The problems are quadratic -/

section LQ
variable {g L : ℝ → ℝ → ℝ} {al be ga X U T : ℝ} (hg : ∀ x u, g x u = al * x + be * u + ga)
  (hL : ∀ x u, L x u = 1 / 2 * X * x ^ 2 + 1 / 2 * U * u ^ 2) (hX : 0 ≤ X) (hU : 0 < U) (hbe : be ≠ 0) (hT : 0 < T)
include hg hL hX hU hbe hT

theorem shoot_quad1 (k : ℕ) (x0 xf : ℝ) :
    ∃ (G : Matrix (Fin (2 * (k + 1))) (Fin (2 * (k + 1))) ℝ) (c : Fin (2 * (k + 1)) → ℝ) (d : ℝ)
      (A : Matrix (Fin 1) (Fin (2 * (k + 1))) ℝ) (b : Fin 1 → ℝ),
      Gᵀ = G ∧ IsPD G ∧ (∀ th, (shoot1 g L (T / (k + 1 : ℕ)) ((par1 (k + 1)).map fun p => (p.1 th, p.2 th)) (x0, 0)).2 =
        1 / 2 * (th ⬝ᵥ G *ᵥ th) + c ⬝ᵥ th + d) ∧
      (∀ th, (fun _ : Fin 1 => (shoot1 g L (T / (k + 1 : ℕ)) ((par1 (k + 1)).map fun p => (p.1 th, p.2 th)) (x0, 0)).1 - xf) =
        A *ᵥ th + b) ∧ ∀ v, Aᵀ *ᵥ v = 0 → v = 0 := by
  refine shoot_quad hg hL hX (by positivity) hU hbe (par1 (k + 1)) ?_ ?_ ?_ k
    (fun j => if j.1 = 2 * k + 1 then 1 else 0) ?_ x0 xf
  · intro p hp
    obtain ⟨i, rfl⟩ := List.mem_ofFn.1 hp
    exact ⟨IsAff.coord _, IsAff.coord _⟩
  · intro p hp th
    obtain ⟨i, rfl⟩ := List.mem_ofFn.1 hp
    exact ⟨rfl, rfl⟩
  · intro th h
    apply theta_ext (k + 1) th 0
    · unfold thetaEven
      rw [List.ofFn_inj]
      funext i
      exact (h _ (List.mem_ofFn.2 ⟨i, rfl⟩)).1
    · unfold thetaOdd
      rw [List.ofFn_inj]
      funext i
      exact (h _ (List.mem_ofFn.2 ⟨i, rfl⟩)).2
  · apply List.ext_getElem
    · simp [par1]
    · intro i h1 h2
      have hi : i < k + 1 := by simpa using h2
      have e1 : ¬ 2 * i = 2 * k + 1 := by omega
      by_cases hk : i = k
      · subst hk
        simp only [par1, List.map_ofFn, List.getElem_ofFn, Function.comp, if_neg e1]
        simp
      · have e2 : ¬ 2 * i + 1 = 2 * k + 1 := by omega
        rw [List.getElem_append_left (by simp; omega)]
        simp only [par1, List.map_ofFn, List.getElem_ofFn, Function.comp, if_neg e1, if_neg e2]
        simp

theorem shoot_quad2 (k : ℕ) (x0 xf : ℝ) :
    ∃ (G : Matrix (Fin (k + 1 + 1)) (Fin (k + 1 + 1)) ℝ) (c : Fin (k + 1 + 1) → ℝ) (d : ℝ)
      (A : Matrix (Fin 1) (Fin (k + 1 + 1)) ℝ) (b : Fin 1 → ℝ),
      Gᵀ = G ∧ IsPD G ∧
      (∀ th, (shoot1 g L (T / (k + 1 : ℕ)) ((par2 (k + 1) (T / (k + 1 : ℕ))).map fun p => (p.1 th, p.2 th)) (x0, 0)).2 =
        1 / 2 * (th ⬝ᵥ G *ᵥ th) + c ⬝ᵥ th + d) ∧
      (∀ th, (fun _ : Fin 1 => (shoot1 g L (T / (k + 1 : ℕ)) ((par2 (k + 1) (T / (k + 1 : ℕ))).map fun p => (p.1 th, p.2 th))
        (x0, 0)).1 - xf) = A *ᵥ th + b) ∧ ∀ v, Aᵀ *ᵥ v = 0 → v = 0 := by
  refine shoot_quad hg hL hX (by positivity) hU hbe (par2 (k + 1) _) ?_ ?_ ?_ k
    (fun j => if j.1 = k + 1 then 1 else 0) ?_ x0 xf
  · intro p hp
    obtain ⟨i, rfl⟩ := List.mem_ofFn.1 hp
    refine ⟨(IsAff.coord 0).add (IsAff.mul _ ?_), IsAff.coord _⟩
    have := IsAff.list_sum ((List.ofFn fun j : Fin (k + 1) => fun th : Fin (k + 1 + 1) → ℝ => th j.succ).take i) (by
      intro f hf
      obtain ⟨j, rfl⟩ := List.mem_ofFn.1 (List.mem_of_mem_take hf)
      exact IsAff.coord _)
    simp only [List.map_take, List.map_ofFn] at this
    exact this
  · intro p hp th
    obtain ⟨i, rfl⟩ := List.mem_ofFn.1 hp
    refine ⟨?_, rfl⟩
    have e : (List.ofFn fun j : Fin (k + 1) => (-th) j.succ) = (List.ofFn fun j : Fin (k + 1) => th j.succ).map fun r => -r := by
      rw [List.map_ofFn]; rfl
    dsimp only
    have e2 : ∀ l : List ℝ, (l.map fun r => -r).sum = -l.sum := by
      intro l
      induction l with
      | nil => simp
      | cons a l ih => simp only [List.map_cons, List.sum_cons, ih]; ring
    rw [e, ← List.map_take, e2, Pi.neg_apply]
    ring
  · intro th h
    funext j
    refine Fin.cases ?_ (fun i => ?_) j
    · have := (h _ (List.mem_ofFn.2 ⟨0, rfl⟩)).1
      simpa using this
    · exact (h _ (List.mem_ofFn.2 ⟨i, rfl⟩)).2
  · apply List.ext_getElem
    · simp [par2]
    · intro i h1 h2
      have hi : i < k + 1 := by simpa using h2
      have ez : ((List.ofFn fun j : Fin (k + 1) => if (j.succ : Fin (k + 1 + 1)).1 = k + 1 then (1 : ℝ) else 0).take i).sum = 0 := by
        apply List.sum_eq_zero
        intro x hx
        obtain ⟨a, ha, rfl⟩ := List.mem_iff_getElem.1 hx
        have ha' : a < i := by
          rw [List.length_take] at ha
          omega
        rw [List.getElem_take, List.getElem_ofFn, if_neg]
        simp only [Fin.val_succ]
        omega
      by_cases hk : i = k
      · subst hk
        simp only [par2, List.map_ofFn, List.getElem_ofFn, Function.comp]
        rw [ez]
        simp
      · rw [List.getElem_append_left (by simp; omega)]
        simp only [par2, List.map_ofFn, List.getElem_ofFn, Function.comp]
        rw [ez]
        simp [hk]

end LQ

/-! ### Evaluation of one entry -/

/-- One entry of the value function for the functions `fc` of the parameters. -/
noncomputable def vEvalCore {N : ℕ} (fc : (Fin N → ℝ) → Py (ℝ × ℝ)) (max_iter : ℕ) : Py ℝ := do
  let _ ← fc 0
  let r ← adLocalEqFast (fun theta => (pyVal (fc theta)).1) (fun theta (_ : Fin 1) => (pyVal (fc theta)).2) 0 max_iter
  let v ← fc r.1
  return v.1

theorem vEvalOne1_core (g L : ℝ → ℝ → ℝ) (T : ℝ) (steps max_iter : ℕ) (x0 xf : ℝ) :
    vEvalOne1 g L T steps max_iter x0 xf =
      vEvalCore (fun th : Fin (2 * steps) → ℝ => funAndCon1 g L T x0 xf (thetaEven th) (thetaOdd th)) max_iter := rfl

theorem vEvalOne2_core (g L : ℝ → ℝ → ℝ) (T : ℝ) (steps max_iter : ℕ) (x0 xf : ℝ) :
    vEvalOne2 g L T steps max_iter x0 xf =
      vEvalCore (fun th : Fin (steps + 1) → ℝ => funAndCon2 g L T x0 xf (List.ofFn th)) max_iter := rfl

theorem vEvalCore_ok (fc : (Fin N → ℝ) → Py (ℝ × ℝ)) (F : (Fin N → ℝ) → ℝ × ℝ) (hF : ∀ th, fc th = .ok (F th)) (max_iter : ℕ)
    {r : (Fin N → ℝ) × ℕ × ℝ} (hr : adLocalEqFast (fun th => (F th).1) (fun th (_ : Fin 1) => (F th).2) 0 max_iter = .ok r) :
    vEvalCore fc max_iter = .ok (F r.1).1 := by
  have hb : ∀ {α β : Type} (a : α) (f : α → Py β), ((Except.ok a : Py α) >>= f) = f a := fun _ _ => rfl
  have e : ∀ th, pyVal (fc th) = F th := fun th => by rw [hF]; rfl
  unfold vEvalCore
  simp only [e]
  rw [hF, hb, hr, hb, hF, hb]
  rfl

theorem vEvalCore_quad (fc : (Fin N → ℝ) → Py (ℝ × ℝ)) (F : (Fin N → ℝ) → ℝ × ℝ) (hF : ∀ th, fc th = .ok (F th))
    (G : Matrix (Fin N) (Fin N) ℝ) (c : Fin N → ℝ) (d : ℝ) (A : Matrix (Fin 1) (Fin N) ℝ) (b : Fin 1 → ℝ) (hG : Gᵀ = G)
    (hP : IsPD G) (hf : ∀ th, (F th).1 = 1 / 2 * (th ⬝ᵥ G *ᵥ th) + c ⬝ᵥ th + d)
    (hc : ∀ th, (fun _ : Fin 1 => (F th).2) = A *ᵥ th + b) (hA : ∀ v, Aᵀ *ᵥ v = 0 → v = 0) :
    ∃ ths : Fin N → ℝ, (F ths).2 = 0 ∧ (∀ th, (F th).2 = 0 → (F ths).1 ≤ (F th).1 ∧ ((F th).1 ≤ (F ths).1 → th = ths)) ∧
      (∀ k, vEvalCore fc (k + 1) = .ok (F ths).1) ∧
      ∀ (x : Fin N → ℝ) (lam : Fin 1 → ℝ), ∃ lam' crit,
        adLocalStep (fun th => (F th).1) (fun th (_ : Fin 1) => (F th).2) x lam = .ok (ths, lam', crit) := by
  obtain ⟨ths, h1, h2, h3, h4⟩ := adLocalEqFast_quad (fun th => (F th).1) (fun th (_ : Fin 1) => (F th).2) G hG hP c d hf A b hc hA
  refine ⟨ths, congrFun h1 0, fun th hth => h2 th (funext fun _ => hth), fun k => ?_, h3⟩
  obtain ⟨crit, h5⟩ := h4 0 k
  exact vEvalCore_ok fc F hF _ h5

theorem vEvalCore_quad' (fc : (Fin N → ℝ) → Py (ℝ × ℝ)) (F : (Fin N → ℝ) → ℝ × ℝ) (hF : ∀ th, fc th = .ok (F th))
    (G : Matrix (Fin N) (Fin N) ℝ) (c : Fin N → ℝ) (d : ℝ) (A : Matrix (Fin 1) (Fin N) ℝ) (b : Fin 1 → ℝ) (hG : Gᵀ = G)
    (hP : IsPD G) (hf : ∀ th, (F th).1 = 1 / 2 * (th ⬝ᵥ G *ᵥ th) + c ⬝ᵥ th + d)
    (hc : ∀ th, (fun _ : Fin 1 => (F th).2) = A *ᵥ th + b) (hA : ∀ v, Aᵀ *ᵥ v = 0 → v = 0) :
    ∃ (V : ℝ) (ths : Fin N → ℝ), fc ths = .ok (V, 0) ∧ (∀ th c, fc th = .ok (c, 0) → V ≤ c ∧ (c = V → th = ths)) ∧
      ∀ k, vEvalCore fc (k + 1) = .ok V := by
  obtain ⟨ths, h1, h2, h3, -⟩ := vEvalCore_quad fc F hF G c d A b hG hP hf hc hA
  refine ⟨(F ths).1, ths, ?_, fun th c' h => ?_, h3⟩
  · rw [hF, Except.ok.injEq]
    exact Prod.ext rfl h1
  · rw [hF, Except.ok.injEq] at h
    obtain ⟨h5, h6⟩ := h2 th (by rw [h])
    rw [h] at h5 h6
    exact ⟨h5, fun h => h6 h.le⟩

theorem vEvalCore_zero (fc : (Fin N → ℝ) → Py (ℝ × ℝ)) {c d : ℝ} (h : fc 0 = .ok (c, d)) : vEvalCore fc 0 = .ok c := by
  have hb : ∀ {α β : Type} (a : α) (f : α → Py β), ((Except.ok a : Py α) >>= f) = f a := fun _ _ => rfl
  unfold vEvalCore
  rw [h, hb, show adLocalEqFast (fun theta => (pyVal (fc theta)).1) (fun theta (_ : Fin 1) => (pyVal (fc theta)).2) (0 : Fin N → ℝ) 0 =
    .ok ((0 : Fin N → ℝ), 0, 1) from rfl, hb]
  dsimp only
  rw [h]
  rfl

end Verif
