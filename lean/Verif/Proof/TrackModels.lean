import Verif.Model.TrackModels
import Verif.Proof.ExampleLQT
import Verif.Proof.Disc
import Mathlib.Analysis.Calculus.Deriv.Pow
import Mathlib.Tactic.FinCases
import Mathlib.Tactic.Linarith

/-! Helper lemmas for the tracking examples: the loop over the points, the constant velocity model. -/

namespace Verif

open Matrix

/-! ### The loop over the points -/

theorem trackLoop_eq {p : ℕ} (pts : ℕ → Fin p → ℝ) (N s : ℕ) (hs : 0 < s) (Xl Xn : Matrix (Fin p) (Fin p) ℝ)
    (c : Fin p → ℝ) (hN : 0 < N) :
    trackLoop ((List.range N).map pts) s ((s : ℤ) * (((List.range N).map pts).length : ℤ)) Xl Xn c =
      .ok ((List.range (s * N)).map (fun k => if k % s = 0 then Xl else Xn), (List.range (s * N)).map (fun k => pts (k / s)),
        pts (N - 1)) := by
  have hT : ((s : ℤ) * (((List.range N).map pts).length : ℤ)).toNat = s * N := by
    rw [List.length_map, List.length_range, ← Int.natCast_mul, Int.toNat_natCast]
  have key : ∀ t ≤ s * N, (List.range t).foldlM
      (fun (st : ℕ × (Fin p → ℝ) × List (Matrix (Fin p) (Fin p) ℝ) × List (Fin p → ℝ)) (k : ℕ) => do
        let (i, curr_r, X, r) := st
        if (k : ℤ) % (s : ℤ) = 0 then do
          let curr_r ← pyGet ((List.range N).map pts) i
          return (i + 1, curr_r, X ++ [Xl], r ++ [curr_r])
        else return (i, curr_r, X ++ [Xn], r ++ [curr_r]))
      ((0, c, [], []) : ℕ × (Fin p → ℝ) × List (Matrix (Fin p) (Fin p) ℝ) × List (Fin p → ℝ)) =
      (.ok ((t + s - 1) / s, if t = 0 then c else pts ((t - 1) / s),
        (List.range t).map (fun k => if k % s = 0 then Xl else Xn), (List.range t).map (fun k => pts (k / s))) : Py _) := by
    intro t
    induction t with
    | zero =>
      intro _
      rw [show (0 + s - 1) / s = 0 from Nat.div_eq_of_lt (by omega)]
      rfl
    | succ t ih =>
      intro ht
      rw [List.range_succ, List.foldlM_append, ih (by omega)]
      have hmod : ((t : ℤ) % (s : ℤ) = 0) ↔ t % s = 0 := by rw [← Int.natCast_mod]; exact Int.natCast_eq_zero
      have hb : ∀ {α β : Type} (a : α) (f : α → Py β), ((Except.ok a : Py α) >>= f) = f a := fun _ _ => rfl
      rw [hb, List.foldlM_cons]
      simp only [hmod]
      by_cases h : t % s = 0
      · obtain ⟨q, rfl⟩ := Nat.dvd_of_mod_eq_zero h
        have hq : q < N := by
          by_contra hc
          have := Nat.mul_le_mul_left s (show N ≤ q by omega)
          omega
        have e1 : (s * q + s - 1) / s = q := by
          rw [Nat.add_sub_assoc (by omega), Nat.mul_add_div hs, Nat.div_eq_of_lt (by omega), add_zero]
        have e2 : (s * q + 1 + s - 1) / s = q + 1 := by
          rw [show s * q + 1 + s - 1 = s * q + s by omega, ← Nat.mul_succ, Nat.mul_div_cancel_left _ hs]
        have e3 : pyGet ((List.range N).map pts) q = .ok (pts q) := by
          unfold pyGet
          simp [hq]
        rw [if_pos h, e1, e2, e3, if_neg (by omega)]
        simp only [List.map_append, List.map_cons, List.map_nil, h, ↓reduceIte, add_tsub_cancel_right,
          Nat.mul_div_cancel_left _ hs]
        rfl
      · have e1 : (t + 1 + s - 1) / s = (t + s - 1) / s := by
          have h1 : t = s * (t / s) + t % s := (Nat.div_add_mod t s).symm
          have h2 : t % s < s := Nat.mod_lt _ hs
          generalize t % s = m at *
          generalize t / s = q at *
          subst h1
          rw [show s * q + m + 1 + s - 1 = s * (q + 1) + m by rw [Nat.mul_succ]; omega,
            show s * q + m + s - 1 = s * (q + 1) + (m - 1) by rw [Nat.mul_succ]; omega,
            Nat.mul_add_div hs, Nat.mul_add_div hs, Nat.div_eq_of_lt h2, Nat.div_eq_of_lt (by omega)]
        have e2 : (t - 1) / s = t / s := by
          have h1 : t = s * (t / s) + t % s := (Nat.div_add_mod t s).symm
          have h2 : t % s < s := Nat.mod_lt _ hs
          have h3 : t - 1 = s * (t / s) + (t % s - 1) := by omega
          rw [h3, Nat.mul_add_div hs, Nat.div_eq_of_lt (show t % s - 1 < s by omega), add_zero]
        have ht0 : t ≠ 0 := by rintro rfl; simp at h
        rw [if_neg h, e1, if_neg ht0, if_neg (by omega), e2]
        simp only [List.map_append, List.map_cons, List.map_nil, h, ↓reduceIte, add_tsub_cancel_right]
        rfl
  unfold trackLoop
  rw [hT]
  have hk := key (s * N) le_rfl
  have hpos : 0 < s * N := Nat.mul_pos hs hN
  refine bind_ok.2 ⟨_, hk, ?_⟩
  rw [if_neg (by omega), show (s * N - 1) / s = N - 1 by
    obtain ⟨M, rfl⟩ : ∃ M, N = M + 1 := ⟨N - 1, by omega⟩
    rw [show s * (M + 1) - 1 = s * M + (s - 1) by rw [Nat.mul_succ]; omega, Nat.mul_add_div hs,
      Nat.div_eq_of_lt (by omega)]
    omega]
  rfl

/-! ### The constant velocity model -/

/-- The discrete-time transition matrix. -/
def cvF (dt : ℝ) : Matrix (Fin 4) (Fin 4) ℝ := !![1, 0, dt, 0; 0, 1, 0, dt; 0, 0, 1, 0; 0, 0, 0, 1]

/-- The discrete-time input matrix. -/
noncomputable def cvL (dt : ℝ) : Matrix (Fin 4) (Fin 2) ℝ := !![dt ^ 2 / 2, 0; 0, dt ^ 2 / 2; dt, 0; 0, dt]

theorem cv_disc (dt : ℝ) (hdt : 0 ≤ dt) : discA linF dt = cvF dt ∧ discB linF linL dt = cvL dt := by
  have key : ∀ z u, cvF dt *ᵥ z + cvL dt *ᵥ u = discA linF dt *ᵥ z + discB linF linL dt *ᵥ u := by
    intro z u
    have h := zoh_solution linF linL u (fun t => cvF t *ᵥ z + cvL t *ᵥ u) dt hdt (by
      intro t _ i
      have hd : HasDerivAt (fun s : ℝ => s) 1 t := hasDerivAt_id t
      have hq : HasDerivAt (fun s : ℝ => s ^ 2 / 2) t t := by
        refine ((hasDerivAt_pow 2 t).div_const 2).congr_deriv ?_
        simp
      fin_cases i
      · have := ((hd.mul_const (z 2)).const_add (z 0)).add (hq.mul_const (u 0))
        simp [cvF, cvL, linF, linL, mulVec, dotProduct, Fin.sum_univ_succ]
        refine this.congr_deriv ?_
        ring
      · have := ((hd.mul_const (z 3)).const_add (z 1)).add (hq.mul_const (u 1))
        simp [cvF, cvL, linF, linL, mulVec, dotProduct, Fin.sum_univ_succ]
        refine this.congr_deriv ?_
        ring
      · have := hd.mul_const (u 0)
        simp [cvF, cvL, linF, linL, mulVec, dotProduct, Fin.sum_univ_succ]
        refine this.congr_deriv ?_
        ring
      · have := hd.mul_const (u 1)
        simp [cvF, cvL, linF, linL, mulVec, dotProduct, Fin.sum_univ_succ]
        refine this.congr_deriv ?_
        ring)
    rw [h]
    congr 1
    have h0 : cvF 0 *ᵥ z + cvL 0 *ᵥ u = z := by
      funext i
      fin_cases i <;> simp [cvF, cvL, mulVec, dotProduct, Fin.sum_univ_succ]
    rw [h0]
  refine ⟨(Matrix.ext_of_mulVec_single fun i => ?_).symm, (Matrix.ext_of_mulVec_single fun i => ?_).symm⟩
  · simpa using key (Pi.single i 1) 0
  · simpa using key 0 (Pi.single i 1)

/-! ### The LQT objects -/

section Objects
variable {n m p q : ℕ}

/-- The object with given weights and targets for every step. -/
def trackLQT (F : Matrix (Fin n) (Fin n) ℝ) (L : Matrix (Fin n) (Fin m) ℝ) (X : ℕ → Matrix (Fin p) (Fin p) ℝ)
    (U : Matrix (Fin m) (Fin m) ℝ) (H : Matrix (Fin p) (Fin n) ℝ) (r : ℕ → Fin p → ℝ) (XT : Matrix (Fin q) (Fin q) ℝ)
    (HT : Matrix (Fin q) (Fin n) ℝ) (rT : Fin q → ℝ) (T : ℕ) : LQT n m ℝ :=
  ⟨(List.range T).map fun k => ⟨p, F, L, X k, U, 0, H, r k, 1, 0, 0⟩, q, XT, HT, rT⟩

/-- The arguments of `checkAndExpand` in both examples. -/
def trackArgs (F : Matrix (Fin n) (Fin n) ℝ) (L : Matrix (Fin n) (Fin m) ℝ) (X : List (Matrix (Fin p) (Fin p) ℝ))
    (U : Matrix (Fin m) (Fin m) ℝ) (H : Matrix (Fin p) (Fin n) ℝ) (r : List (Fin p → ℝ)) (XT : Matrix (Fin q) (Fin q) ℝ)
    (HT : Matrix (Fin q) (Fin n) ℝ) (rT : Fin q → ℝ) (T : ℤ) : LQTArgs ℝ where
  F := .one ⟨_, _, F⟩
  L := .one ⟨_, _, L⟩
  X := .list (X.map fun A => ⟨_, _, A⟩)
  U := .one ⟨_, _, U⟩
  XT := some ⟨_, _, XT⟩
  H := some (.one ⟨_, _, H⟩)
  r := some (.list (r.map fun v => ⟨_, v⟩))
  HT := some ⟨_, _, HT⟩
  rT := some ⟨_, rT⟩
  T := some T

theorem track_check (F : Matrix (Fin n) (Fin n) ℝ) (L : Matrix (Fin n) (Fin m) ℝ) (X : ℕ → Matrix (Fin p) (Fin p) ℝ)
    (U : Matrix (Fin m) (Fin m) ℝ) (H : Matrix (Fin p) (Fin n) ℝ) (r : ℕ → Fin p → ℝ) (XT : Matrix (Fin q) (Fin q) ℝ)
    (HT : Matrix (Fin q) (Fin n) ℝ) (rT : Fin q → ℝ) (T : ℕ) (hT : 0 < T) (t : ℤ) :
    (trackArgs F L ((List.range T).map X) U H ((List.range T).map r) XT HT rT t).checkAndExpand =
      .ok (trackLQT F L X U H r XT HT rT T).raw := by
  rw [C29_ok_iff]
  have hlen : (trackLQT F L X U H r XT HT rT T).stages.length = T := by simp [trackLQT]
  have hmap : ∀ {α : Type} (f : LStage n m ℝ → α), (trackLQT F L X U H r XT HT rT T).stages.map f =
      (List.range T).map fun k => f ⟨p, F, L, X k, U, 0, H, r k, 1, 0, 0⟩ := by
    intro α f
    simp [trackLQT, Function.comp_def]
  have hrep : ∀ {α : Type} (f : LStage n m ℝ → α) (a : α), (∀ k, f ⟨p, F, L, X k, U, 0, H, r k, 1, 0, 0⟩ = a) →
      (ListOr.one a).Expands (T : ℤ) ((trackLQT F L X U H r XT HT rT T).stages.map f) := by
    intro α f a h
    rw [hmap]
    refine ⟨by simp, fun b hb => ?_⟩
    obtain ⟨k, -, rfl⟩ := List.mem_map.1 hb
    exact h k
  have hlist : ∀ {α β : Type} (f : LStage n m ℝ → α) (g : β → α) (y : ℕ → β), (∀ k, f ⟨p, F, L, X k, U, 0, H, r k, 1, 0, 0⟩ = g (y k)) →
      (ListOr.list (((List.range T).map y).map g)).Expands (T : ℤ) ((trackLQT F L X U H r XT HT rT T).stages.map f) := by
    intro α β f g y h
    rw [hmap]
    refine ⟨?_, by simp⟩
    rw [List.map_map]
    exact List.map_congr_left fun k _ => h k
  have hopt : ∀ {α : Type} (D : α → Prop) (f : LStage n m ℝ → α) (a : α), (∀ k, f ⟨p, F, L, X k, U, 0, H, r k, 1, 0, 0⟩ = a) → D a →
      OptExpands none D (T : ℤ) ((trackLQT F L X U H r XT HT rT T).stages.map f) := by
    intro α D f a h hD
    exact ⟨.one a, ⟨by simp, fun _ => ⟨_, rfl, hD⟩⟩, hrep f _ h⟩
  have hz1 : ∀ p : ℕ, (NArr1.ofVec (0 : Fin p → ℝ)).IsZero p := fun p => ⟨rfl, fun _ => rfl⟩
  have hsome : ∀ {α : Type} (a b : α) (D : α → Prop), b = a → OptIs (some a) D b := by
    intro α a b D h
    exact ⟨fun c hc => by rw [h]; exact Option.some.inj hc, by simp⟩
  have hX0 : ∃ tl, ((List.range T).map X).map (fun A => (⟨_, _, A⟩ : NArr2 ℝ)) = NArr2.ofMat (X 0) :: tl := by
    obtain ⟨T', rfl⟩ : ∃ T', T = T' + 1 := ⟨T - 1, by omega⟩
    rw [List.range_succ_eq_map]
    exact ⟨_, rfl⟩
  refine ⟨(T : ℤ), .ofMat F, .ofMat L, .ofMat (X 0), ?_, rfl, rfl, hX0, hrep _ _ fun _ => rfl, hrep _ _ fun _ => rfl,
    hlist _ _ _ fun _ => rfl, hrep _ _ fun _ => rfl, hsome _ _ _ rfl, hopt _ _ _ (fun _ => rfl) (hz1 _),
    ⟨_, hsome _ _ _ rfl, hrep _ _ fun _ => rfl⟩, ⟨_, hsome _ _ _ rfl, hlist _ _ _ fun _ => rfl⟩, hsome _ _ _ rfl,
    hsome _ _ _ rfl, hopt _ _ _ (fun _ => rfl) (eye_isEye _), hopt _ _ _ (fun _ => rfl) (hz1 _),
    hopt _ _ (NArr2.ofMat 0) (fun _ => rfl) ⟨rfl, rfl, fun _ _ => rfl⟩, ?_⟩
  · rintro ⟨F', L', X', U', -, -, h, -⟩
    cases h
  · have := LQT.raw_shaped (trackLQT F L X U H r XT HT rT T)
    rw [hlen] at this
    exact this

theorem track_check_empty (F : Matrix (Fin n) (Fin n) ℝ) (L : Matrix (Fin n) (Fin m) ℝ)
    (U : Matrix (Fin m) (Fin m) ℝ) (H : Matrix (Fin p) (Fin n) ℝ) (XT : Matrix (Fin q) (Fin q) ℝ)
    (HT : Matrix (Fin q) (Fin n) ℝ) (rT : Fin q → ℝ) (t : ℤ) :
    (trackArgs F L ([] : List (Matrix (Fin p) (Fin p) ℝ)) U H [] XT HT rT t).checkAndExpand = .error .indexError :=
  ((C29_errors _).2).2 (Or.inr (Or.inr rfl))

theorem trackLQT_convex (F : Matrix (Fin n) (Fin n) ℝ) (L : Matrix (Fin n) (Fin m) ℝ) (X : ℕ → Matrix (Fin p) (Fin p) ℝ)
    (U : Matrix (Fin m) (Fin m) ℝ) (H : Matrix (Fin p) (Fin n) ℝ) (r : ℕ → Fin p → ℝ) (XT : Matrix (Fin q) (Fin q) ℝ)
    (HT : Matrix (Fin q) (Fin n) ℝ) (rT : Fin q → ℝ) (T : ℕ) (hX : ∀ k, IsPSD (X k)) (hU : Uᵀ = U) (hU' : IsPD U)
    (hXT : IsPSD XT) : (trackLQT F L X U H r XT HT rT T).Convex := by
  refine ⟨fun s hs => ?_, hXT⟩
  obtain ⟨k, -, rfl⟩ := List.mem_map.1 hs
  exact convex_of _ _ _ _ _ _ _ (hX k) hU hU'

theorem trackLoop_empty {p : ℕ} (xy : List (Fin p → ℝ)) (steps T : ℤ) (hT : T ≤ 0) (Xl Xn : Matrix (Fin p) (Fin p) ℝ)
    (c : Fin p → ℝ) : trackLoop xy steps T Xl Xn c = .ok ([], [], c) := by
  unfold trackLoop
  rw [Int.toNat_of_nonpos hT]
  rfl

end Objects

end Verif
