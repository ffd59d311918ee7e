import Verif.Proof.Quad
import Verif.Proof.Shooting

/-! Direct shooting for linear dynamics and quadratic costs is a strictly convex quadratic problem. -/

namespace Verif

open Matrix

variable {N : ℕ}

section Step
variable {g L : ℝ → ℝ → ℝ} {al be ga X U dt : ℝ} (hg : ∀ x u, g x u = al * x + be * u + ga)
  (hL : ∀ x u, L x u = 1 / 2 * X * x ^ 2 + 1 / 2 * U * u ^ 2)
include hg hL

theorem shootStep_aff {a b x c : (Fin N → ℝ) → ℝ} (ha : IsAff a) (hb : IsAff b) (hx : IsAff x) (hc : IsQuad c) :
    IsAff (fun th => (shootStep g L dt (a th) (b th) (x th, c th)).1) ∧
    IsQuad (fun th => (shootStep g L dt (a th) (b th) (x th, c th)).2) := by
  have hG : ∀ {p q : (Fin N → ℝ) → ℝ}, IsAff p → IsAff q → IsAff (fun th => g (p th) (q th)) := by
    intro p q hp hq
    simp only [hg]
    exact ((hp.mul al).add (hq.mul be)).add (IsAff.const ga)
  have hQ : ∀ {p q : (Fin N → ℝ) → ℝ}, IsAff p → IsAff q → IsQuad (fun th => dt * L (p th) (q th)) := by
    intro p q hp hq
    simp only [hL]
    exact ((hp.sq.mul _).add (hq.sq.mul _)).mul dt
  have hM : IsAff (fun th => a th + b th * (dt / 2)) := by
    simp only [mul_comm (b _)]
    exact ha.add (hb.mul _)
  have hE : IsAff (fun th => a th + b th * dt) := by
    simp only [mul_comm (b _)]
    exact ha.add (hb.mul _)
  have k1 := hG hx ha
  have x2 := hx.add ((k1.mul dt).mul (1 / 2))
  have k2 := hG x2 hM
  have x3 := hx.add ((k2.mul dt).mul (1 / 2))
  have k3 := hG x3 hM
  have x4 := hx.add (k3.mul dt)
  have k4 := hG x4 hE
  constructor
  · exact hx.add (((((k1.mul dt).add ((k2.mul dt).mul 2)).add ((k3.mul dt).mul 2)).add (k4.mul dt)).mul (1 / 6))
  · exact hc.add (((((hQ hx ha).add ((hQ x2 hM).mul 2)).add ((hQ x3 hM).mul 2)).add (hQ x4 hE)).mul (1 / 6))

theorem shoot1_aff : ∀ (l : List (((Fin N → ℝ) → ℝ) × ((Fin N → ℝ) → ℝ))), (∀ p ∈ l, IsAff p.1 ∧ IsAff p.2) →
    ∀ (x c : (Fin N → ℝ) → ℝ), IsAff x → IsQuad c →
    IsAff (fun th => (shoot1 g L dt (l.map fun p => (p.1 th, p.2 th)) (x th, c th)).1) ∧
    IsQuad (fun th => (shoot1 g L dt (l.map fun p => (p.1 th, p.2 th)) (x th, c th)).2)
  | [], _, x, c, hx, hc => ⟨hx, hc⟩
  | p :: l, h, x, c, hx, hc => by
    obtain ⟨h1, h2⟩ := shootStep_aff hg hL (dt := dt) (h p (by simp)).1 (h p (by simp)).2 hx hc
    exact shoot1_aff l (fun q hq => h q (by simp [hq])) _ _ h1 h2

theorem shootStep_second (hX : 0 ≤ X) (hdt : 0 ≤ dt) (hU : 0 ≤ U) (a b : ℝ) (p q r : ℝ × ℝ) (h1 : p.1 + q.1 = 2 * r.1) (e : ℝ)
    (h2 : 2 * r.2 + e ≤ p.2 + q.2) :
    (shootStep g L dt a b p).1 + (shootStep g L dt (-a) (-b) q).1 = 2 * (shootStep g L dt 0 0 r).1 ∧
    2 * (shootStep g L dt 0 0 r).2 + (e + 1 / 6 * dt * U * (a ^ 2 + (a + b * dt) ^ 2)) ≤
      (shootStep g L dt a b p).2 + (shootStep g L dt (-a) (-b) q).2 := by
  have hga : ∀ x u x' u' x'' u'', x + x' = 2 * x'' → u' = -u → u'' = 0 → g x u + g x' u' = 2 * g x'' u'' := by
    intro x u x' u' x'' u'' e1 e2 e3
    rw [hg, hg, hg, e2, e3]
    linear_combination al * e1
  have hLa : ∀ x u x' u' x'' u'', x + x' = 2 * x'' → u' = -u → u'' = 0 →
      2 * (dt * L x'' u'') + dt * U * u ^ 2 ≤ dt * L x u + dt * L x' u' := by
    intro x u x' u' x'' u'' e1 e2 e3
    have e4 : x'' = (x + x') / 2 := by linarith
    have : L x u + L x' u' - 2 * L x'' u'' - U * u ^ 2 = X / 4 * (x - x') ^ 2 := by
      rw [hL, hL, hL, e2, e3, e4]; ring
    have h3 : 0 ≤ dt * (X / 4 * (x - x') ^ 2) := by positivity
    rw [← this] at h3
    linarith
  unfold shootStep
  dsimp only
  have eu2 : -a + -b * (dt / 2) = -(a + b * (dt / 2)) := by ring
  have eu4 : -a + -b * dt = -(a + b * dt) := by ring
  have ez2 : (0 : ℝ) + 0 * (dt / 2) = 0 := by ring
  have ez4 : (0 : ℝ) + 0 * dt = 0 := by ring
  have q1 := hga p.1 a q.1 (-a) r.1 0 h1 rfl rfl
  have l1 := hLa p.1 a q.1 (-a) r.1 0 h1 rfl rfl
  generalize g p.1 a = k1 at *
  generalize g q.1 (-a) = k1' at *
  generalize g r.1 0 = k1'' at *
  have x2 : p.1 + 1 / 2 * (dt * k1) + (q.1 + 1 / 2 * (dt * k1')) = 2 * (r.1 + 1 / 2 * (dt * k1'')) := by
    linear_combination h1 + 1 / 2 * dt * q1
  have q2 := hga _ _ _ _ _ _ x2 eu2 ez2
  have l2 := hLa _ _ _ _ _ _ x2 eu2 ez2
  generalize g (p.1 + 1 / 2 * (dt * k1)) (a + b * (dt / 2)) = k2 at *
  generalize g (q.1 + 1 / 2 * (dt * k1')) (-a + -b * (dt / 2)) = k2' at *
  generalize g (r.1 + 1 / 2 * (dt * k1'')) (0 + 0 * (dt / 2)) = k2'' at *
  have x3 : p.1 + 1 / 2 * (dt * k2) + (q.1 + 1 / 2 * (dt * k2')) = 2 * (r.1 + 1 / 2 * (dt * k2'')) := by
    linear_combination h1 + 1 / 2 * dt * q2
  have q3 := hga _ _ _ _ _ _ x3 eu2 ez2
  have l3 := hLa _ _ _ _ _ _ x3 eu2 ez2
  generalize g (p.1 + 1 / 2 * (dt * k2)) (a + b * (dt / 2)) = k3 at *
  generalize g (q.1 + 1 / 2 * (dt * k2')) (-a + -b * (dt / 2)) = k3' at *
  generalize g (r.1 + 1 / 2 * (dt * k2'')) (0 + 0 * (dt / 2)) = k3'' at *
  have x4 : p.1 + dt * k3 + (q.1 + dt * k3') = 2 * (r.1 + dt * k3'') := by
    linear_combination h1 + dt * q3
  have q4 := hga _ _ _ _ _ _ x4 eu4 ez4
  have l4 := hLa _ _ _ _ _ _ x4 eu4 ez4
  have hm : 0 ≤ dt * U * (a + b * (dt / 2)) ^ 2 := by positivity
  constructor
  · linear_combination h1 + 1 / 6 * dt * (q1 + 2 * q2 + 2 * q3 + q4)
  · linarith

theorem shoot1_second (hX : 0 ≤ X) (hdt : 0 ≤ dt) (hU : 0 ≤ U) : ∀ (l : List (ℝ × ℝ)) (p q r : ℝ × ℝ), p.1 + q.1 = 2 * r.1 →
    ∀ e, 2 * r.2 + e ≤ p.2 + q.2 →
    2 * (shoot1 g L dt (l.map fun _ => (0, 0)) r).2 + (e + (l.map fun s => 1 / 6 * dt * U * (s.1 ^ 2 + (s.1 + s.2 * dt) ^ 2)).sum) ≤
      (shoot1 g L dt l p).2 + (shoot1 g L dt (l.map fun s => (-s.1, -s.2)) q).2
  | [], p, q, r, _, e, h2 => by simpa [shoot1] using h2
  | s :: l, p, q, r, h1, e, h2 => by
    obtain ⟨h3, h4⟩ := shootStep_second hg hL hX hdt hU s.1 s.2 p q r h1 e h2
    have := shoot1_second hX hdt hU l _ _ _ h3 _ h4
    simp only [List.map_cons, List.sum_cons, shoot1, List.foldl_cons] at this ⊢
    linarith

omit hL in
theorem shootStep_slope (b x c : ℝ) :
    (shootStep g L dt 0 b (x, c)).1 = (shootStep g L dt 0 0 (x, c)).1 +
      be * b * dt ^ 2 * (1 / 2 + al * dt / 6 + (al * dt) ^ 2 / 24) := by
  unfold shootStep
  dsimp only
  simp only [hg]
  ring

/-- The problem of direct shooting with the parametrisation `l` of the control. -/
theorem shoot_quad (hX : 0 ≤ X) (hdt : 0 < dt) (hU : 0 < U) (hbe : be ≠ 0)
    (l : List (((Fin N → ℝ) → ℝ) × ((Fin N → ℝ) → ℝ))) (hl : ∀ p ∈ l, IsAff p.1 ∧ IsAff p.2)
    (hneg : ∀ p ∈ l, ∀ th, p.1 (-th) = -p.1 th ∧ p.2 (-th) = -p.2 th)
    (hinj : ∀ th, (∀ p ∈ l, p.1 th = 0 ∧ p.2 th = 0) → th = 0)
    (k : ℕ) (th1 : Fin N → ℝ) (h1 : (l.map fun p => (p.1 th1, p.2 th1)) = List.replicate k (0, 0) ++ [(0, 1)]) (x0 xf : ℝ) :
    ∃ (G : Matrix (Fin N) (Fin N) ℝ) (c : Fin N → ℝ) (d : ℝ) (A : Matrix (Fin 1) (Fin N) ℝ) (b : Fin 1 → ℝ),
      Gᵀ = G ∧ IsPD G ∧ (∀ th, (shoot1 g L dt (l.map fun p => (p.1 th, p.2 th)) (x0, 0)).2 =
        1 / 2 * (th ⬝ᵥ G *ᵥ th) + c ⬝ᵥ th + d) ∧
      (∀ th, (fun _ : Fin 1 => (shoot1 g L dt (l.map fun p => (p.1 th, p.2 th)) (x0, 0)).1 - xf) = A *ᵥ th + b) ∧
      ∀ v, Aᵀ *ᵥ v = 0 → v = 0 := by
  have hz : ∀ p ∈ l, p.1 0 = 0 ∧ p.2 0 = 0 := by
    intro p hp
    obtain ⟨h3, h4⟩ := hneg p hp 0
    rw [neg_zero] at h3 h4
    exact ⟨by linarith, by linarith⟩
  have hzero : (l.map fun p => (p.1 0, p.2 0)) = l.map fun _ => ((0 : ℝ), (0 : ℝ)) :=
    List.map_congr_left fun p hp => by rw [(hz p hp).1, (hz p hp).2]
  obtain ⟨⟨a, b, ha⟩, ⟨G, c, d, hG, hq⟩⟩ := shoot1_aff hg hL (dt := dt) l hl (fun _ => x0) (fun _ => 0) (IsAff.const _)
    (IsQuad.const _)
  dsimp only at ha hq
  have hlen : l.length = k + 1 := by
    have := congrArg List.length h1
    simpa using this
  have hane : a ⬝ᵥ th1 ≠ 0 := by
    have e1 := ha th1
    have e0 := ha 0
    rw [dotProduct_zero, zero_add, hzero] at e0
    rw [h1] at e1
    rw [show (l.map fun _ => ((0 : ℝ), (0 : ℝ))) = List.replicate k (0, 0) ++ [(0, 0)] by
      rw [List.map_const', hlen, List.replicate_succ']] at e0
    simp only [shoot1, List.foldl_append, List.foldl_cons, List.foldl_nil] at e0 e1
    generalize List.foldl (fun xc p => shootStep g L dt p.1 p.2 xc) (x0, 0) (List.replicate k (0, 0)) = s at e0 e1
    have e2 := shootStep_slope (L := L) (dt := dt) hg 1 s.1 s.2
    intro h0
    rw [h0, zero_add] at e1
    have e3 : be * 1 * dt ^ 2 * (1 / 2 + al * dt / 6 + (al * dt) ^ 2 / 24) = 0 := by
      have e4 : (shootStep g L dt 0 1 s).1 = (shootStep g L dt 0 0 s).1 := by rw [e1, e0]
      have e5 : (s.1, s.2) = s := rfl
      rw [e5, e4] at e2
      linarith
    have hpos : 0 < 1 / 2 + al * dt / 6 + (al * dt) ^ 2 / 24 := by nlinarith [sq_nonneg (al * dt + 2)]
    have : be * 1 * dt ^ 2 * (1 / 2 + al * dt / 6 + (al * dt) ^ 2 / 24) ≠ 0 := by positivity
    exact this e3
  refine ⟨G, c, d, fun _ => a, fun _ => b - xf, hG, ?_, hq, ?_, ?_⟩
  · intro th hth
    have e1 := hq th
    have e2 := hq (-th)
    have e3 := hq 0
    rw [hzero] at e3
    have hn : (l.map fun p => (p.1 (-th), p.2 (-th))) = (l.map fun p => (p.1 th, p.2 th)).map fun s => (-s.1, -s.2) := by
      rw [List.map_map]
      exact List.map_congr_left fun p hp => by simp [hneg p hp th]
    rw [hn] at e2
    have h3 := shoot1_second hg hL hX hdt.le hU.le (l.map fun p => (p.1 th, p.2 th)) (x0, 0) (x0, 0) (x0, 0)
      (by dsimp only; ring) 0 (by simp)
    rw [List.map_map, show ((fun _ : ℝ × ℝ => ((0 : ℝ), (0 : ℝ))) ∘ fun p : ((Fin N → ℝ) → ℝ) × ((Fin N → ℝ) → ℝ) => (p.1 th, p.2 th)) =
      fun _ => (0, 0) from rfl] at h3
    rw [e1, e2, e3] at h3
    have hpos : 0 < ((l.map fun p => (p.1 th, p.2 th)).map fun s => 1 / 6 * dt * U * (s.1 ^ 2 + (s.1 + s.2 * dt) ^ 2)).sum := by
      have hnn : ∀ t ∈ ((l.map fun p => (p.1 th, p.2 th)).map fun s => 1 / 6 * dt * U * (s.1 ^ 2 + (s.1 + s.2 * dt) ^ 2)), 0 ≤ t := by
        intro t ht
        obtain ⟨s, -, rfl⟩ := List.mem_map.1 ht
        positivity
      by_contra hle
      have h0 := (List.sum_nonneg hnn).antisymm' (not_lt.1 hle)
      apply hth
      apply hinj
      intro p hp
      have := List.all_zero_of_le_zero_le_of_sum_eq_zero hnn h0 (List.mem_map.2 ⟨_, List.mem_map.2 ⟨p, hp, rfl⟩, rfl⟩)
      dsimp only at this
      have h4 : (p.1 th) ^ 2 + (p.1 th + p.2 th * dt) ^ 2 = 0 := by
        have hc : 1 / 6 * dt * U ≠ 0 := by positivity
        exact (mul_eq_zero.1 this).resolve_left hc
      have h5 : p.1 th = 0 := by nlinarith [sq_nonneg (p.1 th), sq_nonneg (p.1 th + p.2 th * dt)]
      rw [h5] at h4
      have h6 : p.2 th * dt = 0 := by nlinarith
      exact ⟨h5, (mul_eq_zero.1 h6).resolve_right hdt.ne'⟩
    have e4 : -th ⬝ᵥ G *ᵥ -th = th ⬝ᵥ G *ᵥ th := by rw [mulVec_neg, neg_dotProduct, dotProduct_neg, neg_neg]
    have e5 : (0 : Fin N → ℝ) ⬝ᵥ G *ᵥ 0 = 0 := by simp
    rw [e4, e5, dotProduct_neg, dotProduct_zero] at h3
    linarith
  · intro th
    funext i
    show _ - xf = a ⬝ᵥ th + (b - xf)
    rw [ha th]
    ring
  · intro v hv
    have : ∀ j, a j * v 0 = 0 := by
      intro j
      have h8 := congrFun hv j
      rw [mulVec, dotProduct, Fin.sum_univ_one] at h8
      exact h8
    have hv0 : v 0 = 0 := by
      by_contra h0
      apply hane
      have : a = 0 := funext fun j => (mul_eq_zero.1 (this j)).resolve_right h0
      rw [this, zero_dotProduct]
    funext i
    rw [Subsingleton.elim i 0, hv0]
    rfl

end Step

end Verif
