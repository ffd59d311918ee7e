import Verif.Model.HJB
import Verif.Proof.ScanTotal
import Mathlib.Tactic.Ring
import Mathlib.Tactic.Linarith
import Mathlib.Tactic.Positivity
import Mathlib.Algebra.BigOperators.Group.List.Basic
import Mathlib.Algebra.Module.Prod
import Mathlib.Tactic.LinearCombination
import Mathlib.Tactic.FieldSimp

/-! Lemmas on the direct shooting functions of the grid solvers. -/

namespace Verif

variable {K : Type} [Field K]

/-- One Runge-Kutta step of state and cost for the control `a + b (t - ti)`. -/
def shootStep (g L : K → K → K) (dt a b : K) (xc : K × K) : K × K :=
  let k1 := g xc.1 a
  let k2 := g (xc.1 + 1 / 2 * (dt * k1)) (a + b * (dt / 2))
  let k3 := g (xc.1 + 1 / 2 * (dt * k2)) (a + b * (dt / 2))
  let k4 := g (xc.1 + dt * k3) (a + b * dt)
  (xc.1 + 1 / 6 * (dt * k1 + 2 * (dt * k2) + 2 * (dt * k3) + dt * k4),
    xc.2 + 1 / 6 * (dt * L xc.1 a + 2 * (dt * L (xc.1 + 1 / 2 * (dt * k1)) (a + b * (dt / 2))) +
      2 * (dt * L (xc.1 + 1 / 2 * (dt * k2)) (a + b * (dt / 2))) + dt * L (xc.1 + dt * k3) (a + b * dt)))

theorem rk4T_shoot (g L : K → K → K) (dt a b ti : K) (xc : K × K) :
    rk4T (fun (xc : K × K) (t : K) => (.ok (g xc.1 (a + b * (t - ti)), L xc.1 (a + b * (t - ti))) : Py (K × K))) dt xc ti =
      .ok (shootStep g L dt a b xc) := by
  have e1 : ti - ti = 0 := sub_self _
  have e2 : ti + dt / 2 - ti = dt / 2 := by ring
  have e3 : ti + dt - ti = dt := by ring
  unfold rk4T shootStep
  simp only [e1, e2, e3, mul_zero, add_zero]
  rfl

theorem rk4TF_shoot (g L : K → K → K) (dt a b ti : K) (xc : K × K) :
    rk4TF (fun (xc : K × K) (t : K) (_ : Unit) =>
      (.ok (g xc.1 (a + b * (t - ti)), L xc.1 (a + b * (t - ti))) : Py (K × K))) dt xc ti () =
      .ok (shootStep g L dt a b xc) := by
  have e1 : ti - ti = 0 := sub_self _
  have e2 : ti + 1 / 2 * dt - ti = dt / 2 := by ring
  have e3 : ti + dt - ti = dt := by ring
  unfold rk4TF shootStep
  simp only [e1, e2, e3, mul_zero, add_zero]
  rfl

theorem foldlM_ok {α β : Type} (f : β → α → Py β) (g : β → α → β) (h : ∀ b a, f b a = .ok (g b a)) :
    ∀ (l : List α) (b : β), l.foldlM f b = .ok (l.foldl g b)
  | [], _ => rfl
  | a :: l, b => by
    rw [List.foldlM_cons, h]
    exact foldlM_ok f g h l (g b a)

theorem foldl_zipIdx {α β : Type} (g : β → α → β) : ∀ (l : List α) (s : ℕ) (b : β),
    (l.zipIdx s).foldl (fun b p => g b p.1) b = l.foldl g b
  | [], _, _ => rfl
  | a :: l, s, b => by
    rw [List.zipIdx_cons, List.foldl_cons, List.foldl_cons]
    exact foldl_zipIdx g l _ _

/-- State and cost after all steps. -/
def shoot1 (g L : K → K → K) (dt : K) (l : List (K × K)) (xc : K × K) : K × K :=
  l.foldl (fun xc p => shootStep g L dt p.1 p.2 xc) xc

theorem funAndCon1_eq (g L : K → K → K) (T x0 xf : K) (as bs : List K) (h : as ≠ []) (hl : bs.length = as.length) :
    funAndCon1 g L T x0 xf as bs =
      .ok ((shoot1 g L (T / as.length) (as.zip bs) (x0, 0)).2, (shoot1 g L (T / as.length) (as.zip bs) (x0, 0)).1 - xf) := by
  unfold funAndCon1
  rw [if_neg (by simpa using h), if_neg (by simpa using hl)]
  dsimp only
  rw [foldlM_ok _ (fun (xc : K × K) (p : (K × K) × ℕ) => shootStep g L (T / as.length) p.1.1 p.1.2 xc)
    (fun xc p => rk4T_shoot g L _ _ _ _ xc), foldl_zipIdx (fun (xc : K × K) (p : K × K) => shootStep g L (T / as.length) p.1 p.2 xc)]
  rfl

theorem funAndCon1TF_eq (g L : K → K → K) (T x0 xf : K) (as bs : List K) :
    funAndCon1TF g L T x0 xf as bs = funAndCon1 g L T x0 xf as bs := by
  unfold funAndCon1TF funAndCon1
  split
  · rfl
  · split
    · rfl
    · dsimp only
      congr 2
      funext xc inp
      rw [rk4TF_shoot, rk4T_shoot]

theorem funAndCon2TF_eq (g L : K → K → K) (T x0 xf : K) (th : List K) :
    funAndCon2TF g L T x0 xf th = funAndCon2 g L T x0 xf th := by
  unfold funAndCon2TF funAndCon2
  cases th with
  | nil => rfl
  | cons a bs =>
    dsimp only
    split
    · rfl
    · congr 2
      funext xc inp
      rw [rk4TF_shoot, rk4T_shoot]

theorem shoot2_eq (g L : K → K → K) (dt : K) : ∀ (bs as : List K) (xc : K × K) (u : K), as.length = bs.length →
    (∀ i (h : i < as.length), as[i] = u + dt * (bs.take i).sum) →
    bs.foldl (fun (c : (K × K) × K) b => (shootStep g L dt c.2 b c.1, c.2 + b * dt)) (xc, u) =
      (shoot1 g L dt (as.zip bs) xc, u + dt * bs.sum)
  | [], as, xc, u, _, _ => by simp [shoot1]
  | b :: bs, [], xc, u, h, _ => by simp at h
  | b :: bs, a :: as, xc, u, h, ha => by
    have h0 := ha 0 (by simp)
    simp at h0
    subst h0
    rw [List.foldl_cons]
    dsimp only
    rw [shoot2_eq g L dt bs as _ (a + b * dt) (by simpa using h)]
    · rw [List.sum_cons, shoot1, shoot1, List.zip_cons_cons, List.foldl_cons]
      congr 1
      ring
    · intro i hi
      have := ha (i + 1) (by simpa using hi)
      simp at this
      rw [this]
      ring

theorem funAndCon2_eq (g L : K → K → K) (T x0 xf a0 : K) (as bs : List K) (hb : bs ≠ []) (hl : as.length = bs.length)
    (ha : ∀ i (h : i < as.length), as[i] = a0 + T / bs.length * (bs.take i).sum) :
    funAndCon2 g L T x0 xf (a0 :: bs) = funAndCon1 g L T x0 xf as bs := by
  have hne : as ≠ [] := by
    intro h; rw [h] at hl; exact hb (List.length_eq_zero_iff.1 hl.symm)
  rw [funAndCon1_eq g L T x0 xf as bs hne hl.symm]
  unfold funAndCon2
  dsimp only
  rw [if_neg (by simpa using hb)]
  rw [foldlM_ok _ (fun (c : (K × K) × K) (p : K × ℕ) => (shootStep g L (T / bs.length) c.2 p.1 c.1, c.2 + p.1 * (T / bs.length)))
    (fun c p => by rw [rk4T_shoot]; rfl),
    foldl_zipIdx (fun (c : (K × K) × K) (b : K) => (shootStep g L (T / bs.length) c.2 b c.1, c.2 + b * (T / bs.length))),
    shoot2_eq g L _ bs as _ _ hl ha, hl]
  rfl

theorem shoot1_integrator (dt : K) (h6 : (6 : K) ≠ 0) : ∀ (l : List (K × K)) (xc : K × K),
    shoot1 (fun _ u => u) (fun _ u => u ^ 2) dt l xc =
      (xc.1 + (l.map fun p => p.1 * dt + p.2 * dt ^ 2 / 2).sum,
        xc.2 + (l.map fun p => p.1 ^ 2 * dt + p.1 * p.2 * dt ^ 2 + p.2 ^ 2 * dt ^ 3 / 3).sum)
  | [], xc => by simp [shoot1]
  | (a, b) :: l, xc => by
    have h2 : (2 : K) ≠ 0 := fun h => h6 (by rw [show (6 : K) = 2 * 3 by norm_num, h, zero_mul])
    have h3 : (3 : K) ≠ 0 := fun h => h6 (by rw [show (6 : K) = 2 * 3 by norm_num, h, mul_zero])
    have ih := shoot1_integrator dt h6 l (shootStep (fun _ u => u) (fun _ u => u ^ 2) dt a b xc)
    rw [shoot1, List.foldl_cons]
    dsimp only
    rw [shoot1] at ih
    rw [ih, List.map_cons, List.sum_cons, List.map_cons, List.sum_cons]
    unfold shootStep
    generalize (l.map fun p => p.1 * dt + p.2 * dt ^ 2 / 2).sum = S1
    generalize (l.map fun p => p.1 ^ 2 * dt + p.1 * p.2 * dt ^ 2 + p.2 ^ 2 * dt ^ 3 / 3).sum = S2
    ext
    · dsimp only; field_simp; ring
    · dsimp only; field_simp; ring

variable [LinearOrder K] [IsStrictOrderedRing K]

theorem shootStep_convex (g L : K → K → K) (al be ga dt : K) (hdt : 0 ≤ dt) (hg : ∀ x u, g x u = al * x + be * u + ga)
    (lam mu : K) (hlm : lam + mu = 1)
    (hL : ∀ x u x' u', L (lam * x + mu * x') (lam * u + mu * u') ≤ lam * L x u + mu * L x' u')
    (a b a' b' : K) (xc xc' xc'' : K × K) (h1 : xc''.1 = lam * xc.1 + mu * xc'.1)
    (h2 : xc''.2 ≤ lam * xc.2 + mu * xc'.2) :
    (shootStep g L dt (lam * a + mu * a') (lam * b + mu * b') xc'').1 =
      lam * (shootStep g L dt a b xc).1 + mu * (shootStep g L dt a' b' xc').1 ∧
    (shootStep g L dt (lam * a + mu * a') (lam * b + mu * b') xc'').2 ≤
      lam * (shootStep g L dt a b xc).2 + mu * (shootStep g L dt a' b' xc').2 := by
  have hmu : mu = 1 - lam := by linarith
  have hga : ∀ x u x' u' x'' u'', x'' = lam * x + mu * x' → u'' = lam * u + mu * u' →
      g x'' u'' = lam * g x u + mu * g x' u' := by
    intro x u x' u' x'' u'' e1 e2
    rw [hg, hg, hg, e1, e2, hmu]; ring
  have hLa : ∀ x u x' u' x'' u'', x'' = lam * x + mu * x' → u'' = lam * u + mu * u' →
      dt * L x'' u'' ≤ lam * (dt * L x u) + mu * (dt * L x' u') := by
    intro x u x' u' x'' u'' e1 e2
    have := mul_le_mul_of_nonneg_left (hL x u x' u') hdt
    rw [← e1, ← e2] at this
    linarith
  unfold shootStep
  dsimp only
  have q1 := hga xc.1 a xc'.1 a' xc''.1 (lam * a + mu * a') h1 rfl
  have l1 := hLa xc.1 a xc'.1 a' xc''.1 (lam * a + mu * a') h1 rfl
  generalize g xc''.1 (lam * a + mu * a') = k1'' at *
  generalize g xc.1 a = k1 at *
  generalize g xc'.1 a' = k1' at *
  have ex2 : xc''.1 + 1 / 2 * (dt * k1'') = lam * (xc.1 + 1 / 2 * (dt * k1)) + mu * (xc'.1 + 1 / 2 * (dt * k1')) := by
    rw [h1, q1]; ring
  have eu2 : lam * a + mu * a' + (lam * b + mu * b') * (dt / 2) = lam * (a + b * (dt / 2)) + mu * (a' + b' * (dt / 2)) := by ring
  have q2 := hga _ _ _ _ _ _ ex2 eu2
  have l2 := hLa _ _ _ _ _ _ ex2 eu2
  generalize g (xc''.1 + 1 / 2 * (dt * k1'')) (lam * a + mu * a' + (lam * b + mu * b') * (dt / 2)) = k2'' at *
  generalize g (xc.1 + 1 / 2 * (dt * k1)) (a + b * (dt / 2)) = k2 at *
  generalize g (xc'.1 + 1 / 2 * (dt * k1')) (a' + b' * (dt / 2)) = k2' at *
  have ex3 : xc''.1 + 1 / 2 * (dt * k2'') = lam * (xc.1 + 1 / 2 * (dt * k2)) + mu * (xc'.1 + 1 / 2 * (dt * k2')) := by
    rw [h1, q2]; ring
  have q3 := hga _ _ _ _ _ _ ex3 eu2
  have l3 := hLa _ _ _ _ _ _ ex3 eu2
  generalize g (xc''.1 + 1 / 2 * (dt * k2'')) (lam * a + mu * a' + (lam * b + mu * b') * (dt / 2)) = k3'' at *
  generalize g (xc.1 + 1 / 2 * (dt * k2)) (a + b * (dt / 2)) = k3 at *
  generalize g (xc'.1 + 1 / 2 * (dt * k2')) (a' + b' * (dt / 2)) = k3' at *
  have ex4 : xc''.1 + dt * k3'' = lam * (xc.1 + dt * k3) + mu * (xc'.1 + dt * k3') := by
    rw [h1, q3]; ring
  have eu4 : lam * a + mu * a' + (lam * b + mu * b') * dt = lam * (a + b * dt) + mu * (a' + b' * dt) := by ring
  have q4 := hga _ _ _ _ _ _ ex4 eu4
  have l4 := hLa _ _ _ _ _ _ ex4 eu4
  constructor
  · rw [q4, h1, q1, q2, q3]; ring
  · linarith

theorem shoot1_convex (g L : K → K → K) (al be ga dt : K) (hdt : 0 ≤ dt) (hg : ∀ x u, g x u = al * x + be * u + ga)
    (lam mu : K) (hlm : lam + mu = 1)
    (hL : ∀ x u x' u', L (lam * x + mu * x') (lam * u + mu * u') ≤ lam * L x u + mu * L x' u') :
    ∀ (l l' : List (K × K)), l'.length = l.length → ∀ (xc xc' xc'' : K × K), xc''.1 = lam * xc.1 + mu * xc'.1 →
    xc''.2 ≤ lam * xc.2 + mu * xc'.2 →
    (shoot1 g L dt (List.zipWith (fun p q => (lam * p.1 + mu * q.1, lam * p.2 + mu * q.2)) l l') xc'').1 =
      lam * (shoot1 g L dt l xc).1 + mu * (shoot1 g L dt l' xc').1 ∧
    (shoot1 g L dt (List.zipWith (fun p q => (lam * p.1 + mu * q.1, lam * p.2 + mu * q.2)) l l') xc'').2 ≤
      lam * (shoot1 g L dt l xc).2 + mu * (shoot1 g L dt l' xc').2
  | [], [], _, xc, xc', xc'', h1, h2 => ⟨h1, h2⟩
  | [], _ :: _, h, _, _, _, _, _ => by simp at h
  | _ :: _, [], h, _, _, _, _, _ => by simp at h
  | p :: l, q :: l', h, xc, xc', xc'', h1, h2 => by
    obtain ⟨h3, h4⟩ := shootStep_convex g L al be ga dt hdt hg lam mu hlm hL p.1 p.2 q.1 q.2 xc xc' xc'' h1 h2
    exact shoot1_convex g L al be ga dt hdt hg lam mu hlm hL l l' (by simpa using h) _ _ _ h3 h4

omit [Field K] [LinearOrder K] [IsStrictOrderedRing K] in
theorem flatten_rows {γ : Type} (m : ℕ) : ∀ (rows : List (List γ)), (∀ r ∈ rows, r.length = m) → ∀ i < rows.length,
    some ((rows.flatten.drop (i * m)).take m) = rows[i]?
  | [], _, i, hi => by simp at hi
  | r :: rows, h, 0, _ => by
    have hr := h r (by simp)
    simp only [Nat.zero_mul, List.drop_zero, List.flatten_cons, List.getElem?_cons_zero]
    rw [List.take_append_of_le_length hr.ge, List.take_of_length_le hr.le]
  | r :: rows, h, i + 1, hi => by
    have hr := h r (by simp)
    rw [List.getElem?_cons_succ, ← flatten_rows m rows (fun r' h' => h r' (by simp [h'])) i (by simpa using hi),
      List.flatten_cons, Nat.succ_mul, Nat.add_comm, List.drop_append, ← hr]
    rw [List.drop_eq_nil_of_le (by omega), Nat.add_sub_cancel_left, List.nil_append]

omit [Field K] [LinearOrder K] [IsStrictOrderedRing K] in
theorem gridEval_eq {β γ : Type} (one : β → β → γ) (x0s xfs : List β) :
    gridEval one x0s xfs = x0s.map fun x0 => xfs.map fun xf => one x0 xf := by
  have key1 : ∀ (x0 : β) (xfs : List β), List.zipWith one (xfs.map fun _ => x0) xfs = xfs.map fun xf => one x0 xf := by
    intro x0 xfs
    induction xfs with
    | nil => rfl
    | cons b m ihm => rw [List.map_cons, List.zipWith_cons_cons, ihm, List.map_cons]
  have key : ∀ (x0s : List β), List.zipWith one (x0s.map fun x0 => xfs.map fun _ => x0).flatten
      (x0s.map fun _ => xfs).flatten = (x0s.map fun x0 => xfs.map fun xf => one x0 xf).flatten := by
    intro x0s
    induction x0s with
    | nil => rfl
    | cons a l ih =>
      simp only [List.map_cons, List.flatten_cons]
      rw [List.zipWith_append (by simp), ih, key1]
  unfold gridEval
  dsimp only
  rw [key]
  apply List.ext_getElem?
  intro i
  by_cases hi : i < x0s.length
  · rw [List.getElem?_map, List.getElem?_range hi, Option.map_some,
      flatten_rows xfs.length _ (by simp) i (by simpa using hi)]
  · rw [List.getElem?_eq_none (by simpa using hi), List.getElem?_eq_none (by simpa using hi)]

end Verif
