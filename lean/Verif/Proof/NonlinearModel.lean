import Verif.Proof.TrackModels
import Verif.Props.NLQTStat
import Mathlib.Algebra.BigOperators.Fin

/-! Helper lemmas for the nonlinear tracking example. -/

namespace Verif

open Matrix

/-! ### The LQT object -/

/-- The LQT object. -/
noncomputable def nlLQT (pts : ℕ → Fin 3 → ℝ) (s N : ℕ) : LQT 4 2 ℝ :=
  trackLQT 1 !![0, 0; 0, 0; 1, 0; 0, 1] (fun k => if k % s = 0 then Matrix.diagonal ![100, 100, 1000] else (1e-6 : ℝ) • 1)
    (Matrix.diagonal ![1, 100]) nlH (fun k => pts (k / s)) ((1e-6 : ℝ) • 1) nlH
    ![pts (N - 1) 0, pts (N - 1) 1, pts (N - 1) 2] (s * N)

theorem nlGetLQT_eq (pts : ℕ → Fin 3 → ℝ) (s N : ℕ) (hs : 0 < s) (hN : 0 < N) :
    nlGetLQT ((List.range N).map pts) s = .ok ((nlLQT pts s N).raw, ![pts 0 0, pts 0 1, pts 0 2, 0]) := by
  have hb : ∀ {α β : Type} (a : α) (f : α → Py β), ((Except.ok a : Py α) >>= f) = f a := fun _ _ => rfl
  unfold nlGetLQT
  dsimp only
  have e2 : pyGet ((List.range N).map pts) 0 = .ok (pts 0) := by
    unfold pyGet
    simp [hN]
  rw [e2, hb, trackLoop_eq pts N s hs _ _ _ hN, hb]
  dsimp only
  have e3 := track_check (1 : Matrix (Fin 4) (Fin 4) ℝ) !![0, 0; 0, 0; 1, 0; 0, 1]
    (fun k => if k % s = 0 then (Matrix.diagonal ![100, 100, 1000] : Matrix (Fin 3) (Fin 3) ℝ) else (1e-6 : ℝ) • 1)
    (Matrix.diagonal ![1, 100]) nlH (fun k => pts (k / s)) ((1e-6 : ℝ) • (1 : Matrix (Fin 3) (Fin 3) ℝ)) nlH
    ![pts (N - 1) 0, pts (N - 1) 1, pts (N - 1) 2] (s * N)
    (Nat.mul_pos hs hN) ((s : ℤ) * (((List.range N).map pts).length : ℤ))
  exact bind_ok.2 ⟨_, e3, rfl⟩

theorem nlGetLQT_empty (steps : ℤ) : nlGetLQT [] steps = .error .indexError := rfl

theorem nlGetLQT_nonpos (xy : List (Fin 3 → ℝ)) (steps : ℤ) (h : steps ≤ 0) : nlGetLQT xy steps = .error .indexError := by
  have hb : ∀ {α β : Type} (a : α) (f : α → Py β), ((Except.ok a : Py α) >>= f) = f a := fun _ _ => rfl
  match xy with
  | [] => rfl
  | v :: l =>
    unfold nlGetLQT
    dsimp only
    rw [show pyGet (v :: l) 0 = .ok v from rfl, hb, trackLoop_empty _ _ _ (by
      have : (0 : ℤ) ≤ ((v :: l).length : ℤ) := by positivity
      nlinarith), hb]
    dsimp only
    have := track_check_empty (p := 3) (1 : Matrix (Fin 4) (Fin 4) ℝ) !![0, 0; 0, 0; 1, 0; 0, 1] (Matrix.diagonal ![1, 100]) nlH
      ((1e-6 : ℝ) • (1 : Matrix (Fin 3) (Fin 3) ℝ)) nlH ![v 0, v 1, v 2] (steps * ((v :: l).length : ℤ))
    unfold trackArgs at this
    unfold nlArgs
    rw [this]
    rfl

theorem nlLQT_convex (pts : ℕ → Fin 3 → ℝ) (s N : ℕ) : (nlLQT pts s N).Convex := by
  refine trackLQT_convex _ _ _ _ _ _ _ _ _ _ (fun k => ?_) (Matrix.diagonal_transpose _) (isPD_diagonal _ fun i => ?_)
    (isPSD_smul_one _ (by norm_num))
  · split_ifs
    · refine isPSD_diagonal _ fun i => ?_
      fin_cases i <;> norm_num
    · exact isPSD_smul_one _ (by norm_num)
  · fin_cases i <;> norm_num

/-! ### The cost along the nonlinear model -/

theorem simulate_fn {n m : ℕ} {K : Type} [Field K] (M : NModel n m K) (T : ℕ) (w : ℕ → Fin m → K) (z : ℕ → Fin n → K)
    (hz : ∀ k < T, z (k + 1) = M.f (z k) (w k)) : M.simulate (z 0) ((List.range T).map w) = (List.range (T + 1)).map z := by
  have key : ∀ t ≤ T, ((List.range t).map w).foldl
      (fun (st : List (Fin n → K) × (Fin n → K)) u => (st.1 ++ [M.f st.2 u], M.f st.2 u)) ([z 0], z 0) =
      ((List.range (t + 1)).map z, z t) := by
    intro t
    induction t with
    | zero => intro _; rfl
    | succ t ih =>
      intro ht
      rw [List.range_succ, List.map_append, List.foldl_append, ih (by omega), List.range_succ (n := t + 1), List.map_append]
      show ((List.range (t + 1)).map z ++ [M.f (z t) (w t)], M.f (z t) (w t)) = _
      rw [← hz t (by omega)]
      rfl
  exact congrArg Prod.fst (key T le_rfl)

theorem cost_fn_any {n m : ℕ} {K : Type} [Field K] (P : LQT n m K) (T : ℕ) (st : ℕ → LStage n m K)
    (hst : P.stages = (List.range T).map st) (w : ℕ → Fin m → K) (z : ℕ → Fin n → K) :
    P.cost ((List.range T).map w) ((List.range (T + 1)).map z) =
      .ok (halfQuad P.XT (P.HT *ᵥ z T - P.rT) + ∑ k ∈ Finset.range T, (st k).cost (z k) (w k)) := by
  have hb : ∀ {α β : Type} (a : α) (f : α → Py β), ((Except.ok a : Py α) >>= f) = f a := fun _ _ => rfl
  have hg : ∀ {α : Type} (f : ℕ → α) (k N : ℕ), k < N → pyGet ((List.range N).map f) k = .ok (f k) := by
    intro α f k N h
    unfold pyGet
    simp [h]
  have key : ∀ t ≤ T, ∀ a : K, (List.range t).foldlM (fun res k => do
      let s ← pyGet P.stages k
      let x ← pyGet ((List.range (T + 1)).map z) k
      let u ← pyGet ((List.range T).map w) k
      return res + s.cost x u) a = (.ok (a + ∑ k ∈ Finset.range t, (st k).cost (z k) (w k)) : Py K) := by
    intro t
    induction t with
    | zero => intro _ a; simp; rfl
    | succ t ih =>
      intro ht a
      rw [List.range_succ (n := t), List.foldlM_append, ih (by omega), hb, List.foldlM_cons, hst, hg _ _ _ (by omega), hb,
        hg _ _ _ (by omega), hb, hg _ _ _ (by omega), hb, Finset.sum_range_succ, ← add_assoc]
      rfl
  unfold LQT.cost
  have hl : ((List.range (T + 1)).map z).getLast? = some (z T) := by
    rw [List.range_succ, List.map_append]
    simp
  rw [hl]
  dsimp only
  rw [hb, List.length_map, List.length_range]
  exact key T le_rfl _

/-! ### The initial guess -/

/-- A target differs from another one by more than `0.1` in both coordinates. -/
def FarAway (p q : Fin 3 → ℝ) : Prop := |p 0 - q 0| > 0.1 ∧ |p 1 - q 1| > 0.1

open Classical in
/-- Index of the target the distances are measured from, and speed. -/
noncomputable def guessSeq (dt : ℝ) (pos : ℕ → Fin 3 → ℝ) : ℕ → ℕ × ℝ
  | 0 => (0, 0)
  | k + 1 => if FarAway (pos (k + 1)) (pos (guessSeq dt pos k).1) then
      (k + 1, Real.sqrt ((pos (k + 1) 0 - pos (guessSeq dt pos k).1 0) ^ 2 + (pos (k + 1) 1 - pos (guessSeq dt pos k).1 1) ^ 2) /
        (((k + 1 : ℕ) - ((guessSeq dt pos k).1 : ℝ)) * dt)) else guessSeq dt pos k

theorem guessSeq_le (dt : ℝ) (pos : ℕ → Fin 3 → ℝ) (k : ℕ) : (guessSeq dt pos k).1 ≤ k := by
  induction k with
  | zero => exact le_rfl
  | succ k ih =>
    unfold guessSeq
    split_ifs
    · exact le_rfl
    · omega

theorem guessSeq_near (dt : ℝ) (pos : ℕ → Fin 3 → ℝ) (t : ℕ) (h : ∀ k < t, ¬FarAway (pos (k + 1)) (pos 0)) :
    guessSeq dt pos t = (0, 0) := by
  induction t with
  | zero => rfl
  | succ t ih =>
    unfold guessSeq
    rw [ih fun k hk => h k (by omega), if_neg (h t (by omega))]

/-- The positions the distances are measured between: the first target, then the targets. -/
def guessPos (r : ℕ → Fin 3 → ℝ) : ℕ → Fin 3 → ℝ
  | 0 => r 0
  | k + 1 => r k

theorem guess_loop (dt : ℝ) (r : ℕ → Fin 3 → ℝ) (x0 : Fin 4 → ℝ) (t : ℕ)
    (h : dt ≠ 0 ∨ ∀ k < t, ¬FarAway (r k) (r 0)) :
    ((List.range t).map r).foldlM (nlGuessStep dt) ⟨r 0 0, r 0 1, 0, 0, [x0], []⟩ =
      (.ok ⟨guessPos r (guessSeq dt (guessPos r) t).1 0, guessPos r (guessSeq dt (guessPos r) t).1 1,
        (guessSeq dt (guessPos r) t).2, t - (guessSeq dt (guessPos r) t).1,
        x0 :: (List.range t).map (fun k => ![r k 0, r k 1, r k 2, (guessSeq dt (guessPos r) (k + 1)).2]),
        (List.range t).map fun _ => 0⟩ : Py GuessState) := by
  have hb : ∀ {α β : Type} (a : α) (f : α → Py β), ((Except.ok a : Py α) >>= f) = f a := fun _ _ => rfl
  induction t with
  | zero => rfl
  | succ t ih =>
    have e0 : (List.range (t + 1)).map r = (List.range t).map r ++ [r t] := by rw [List.range_succ, List.map_append]; rfl
    rw [e0, List.foldlM_append, ih (h.imp_right fun h k hk => h k (by omega)), hb, List.foldlM_cons]
    have hle := guessSeq_le dt (guessPos r) t
    have hp : guessPos r (t + 1) = r t := rfl
    have key : nlGuessStep dt ⟨guessPos r (guessSeq dt (guessPos r) t).1 0, guessPos r (guessSeq dt (guessPos r) t).1 1,
        (guessSeq dt (guessPos r) t).2, t - (guessSeq dt (guessPos r) t).1,
        x0 :: (List.range t).map (fun k => ![r k 0, r k 1, r k 2, (guessSeq dt (guessPos r) (k + 1)).2]),
        (List.range t).map fun _ => 0⟩ (r t) =
        .ok ⟨guessPos r (guessSeq dt (guessPos r) (t + 1)).1 0, guessPos r (guessSeq dt (guessPos r) (t + 1)).1 1,
        (guessSeq dt (guessPos r) (t + 1)).2, t + 1 - (guessSeq dt (guessPos r) (t + 1)).1,
        x0 :: (List.range (t + 1)).map (fun k => ![r k 0, r k 1, r k 2, (guessSeq dt (guessPos r) (k + 1)).2]),
        (List.range (t + 1)).map fun _ => 0⟩ := by
      rw [List.range_succ, List.map_append, List.map_append]
      simp only [List.map_cons, List.map_nil]
      by_cases hf : FarAway (guessPos r (t + 1)) (guessPos r (guessSeq dt (guessPos r) t).1)
      · have e : guessSeq dt (guessPos r) (t + 1) = _ := if_pos hf
        rw [e]
        have hd : dt ≠ 0 := by
          rcases h with h | h
          · exact h
          · exfalso
            have h0 := guessSeq_near dt (guessPos r) t (fun k hk => h k (by omega))
            rw [h0] at hf
            exact h t (by omega) hf
        have hc : ((t - (guessSeq dt (guessPos r) t).1 + 1 : ℕ) : ℝ) = (t + 1 : ℕ) - ((guessSeq dt (guessPos r) t).1 : ℝ) := by
          rw [← Nat.cast_sub (by omega)]
          congr 1
          omega
        have hc0 : ((t - (guessSeq dt (guessPos r) t).1 + 1 : ℕ) : ℝ) * dt ≠ 0 :=
          mul_ne_zero (Nat.cast_ne_zero.2 (by omega)) hd
        unfold nlGuessStep
        dsimp only
        have hf' : |r t 0 - guessPos r (guessSeq dt (guessPos r) t).1 0| > 0.1 ∧
          |r t 1 - guessPos r (guessSeq dt (guessPos r) t).1 1| > 0.1 := hf
        rw [if_pos hf', if_neg hc0, hc]
        simp only [hp, Nat.sub_self]
        rfl
      · have e : guessSeq dt (guessPos r) (t + 1) = guessSeq dt (guessPos r) t := if_neg hf
        rw [e]
        unfold nlGuessStep
        dsimp only
        have hf' : ¬(|r t 0 - guessPos r (guessSeq dt (guessPos r) t).1 0| > 0.1 ∧
          |r t 1 - guessPos r (guessSeq dt (guessPos r) t).1 1| > 0.1) := hf
        rw [if_neg hf', show t + 1 - (guessSeq dt (guessPos r) t).1 = t - (guessSeq dt (guessPos r) t).1 + 1 by omega]
        rfl
    rw [key, hb]
    rfl

theorem guess_loop_zero (r : ℕ → Fin 3 → ℝ) (x0 : Fin 4 → ℝ) (T : ℕ) (k : ℕ) (hk : k < T) (hf : FarAway (r k) (r 0)) :
    ((List.range T).map r).foldlM (nlGuessStep 0) ⟨r 0 0, r 0 1, 0, 0, [x0], []⟩ = (.error .zeroDivisionError : Py GuessState) := by
  classical
  have hb : ∀ {α β : Type} (a : α) (f : α → Py β), ((Except.ok a : Py α) >>= f) = f a := fun _ _ => rfl
  have hex : ∃ k, k < T ∧ FarAway (r k) (r 0) := ⟨k, hk, hf⟩
  obtain ⟨hk1, hk2⟩ := Nat.find_spec hex
  have hmin : ∀ j < Nat.find hex, ¬FarAway (r j) (r 0) := fun j hj hj' => Nat.find_min hex hj ⟨by omega, hj'⟩
  generalize Nat.find hex = j at *
  have e : (List.range T).map r = (List.range j).map r ++ (r j :: ((List.range T).map r).drop (j + 1)) := by
    refine List.ext_getElem? fun i => ?_
    rw [List.getElem?_append]
    simp only [List.length_map, List.length_range, List.getElem?_map]
    by_cases h1 : i < j
    · rw [if_pos h1]; simp [h1, show i < T by omega]
    · rw [if_neg h1]
      obtain ⟨d, rfl⟩ : ∃ d, i = j + d := ⟨i - j, by omega⟩
      rw [Nat.add_sub_cancel_left]
      cases d with
      | zero => simp [hk1]
      | succ d =>
        rw [List.getElem?_cons_succ, List.getElem?_drop, List.getElem?_map]
        congr 2
        omega
  rw [e, List.foldlM_append, guess_loop 0 r x0 j (Or.inr hmin), hb, List.foldlM_cons]
  rw [guessSeq_near 0 (guessPos r) j hmin]
  have : ∀ L, nlGuessStep 0 ⟨guessPos r 0 0, guessPos r 0 1, 0, j - 0, L, (List.range j).map fun _ => 0⟩ (r j) =
      .error .zeroDivisionError := by
    intro L
    unfold nlGuessStep
    dsimp only
    have hf' : |r j 0 - guessPos r 0 0| > 0.1 ∧ |r j 1 - guessPos r 0 1| > 0.1 := hk2
    rw [if_pos hf', if_pos (by simp)]
  rw [this]
  rfl

/-! ### The data -/

theorem unwrapFrom_spec (ps : List ℝ) : ∀ prev corr : ℝ, (∃ n : ℤ, corr = n * (2 * Real.pi)) →
    List.Forall₂ (fun p q : ℝ => ∃ n : ℤ, q = p + n * (2 * Real.pi)) (prev :: ps) ((prev + corr) :: npUnwrapFrom prev corr ps) ∧
    List.IsChain (fun a b : ℝ => |b - a| ≤ Real.pi) ((prev + corr) :: npUnwrapFrom prev corr ps) := by
  induction ps with
  | nil =>
    rintro prev corr ⟨n, hn⟩
    exact ⟨List.Forall₂.cons ⟨n, by rw [hn]⟩ List.Forall₂.nil, List.isChain_singleton _⟩
  | cons p ps ih =>
    rintro prev corr ⟨n, hn⟩
    have hpi := Real.pi_pos
    have hmod : ∃ (ph : ℝ) (k : ℤ), ph = k * (2 * Real.pi) ∧ |p - prev + ph| ≤ Real.pi ∧
        npUnwrapFrom prev corr (p :: ps) = (p + (corr + ph)) :: npUnwrapFrom p (corr + ph) ps := by
      refine ⟨_, ?_, ?_, ?_, rfl⟩
      · exact if |p - prev| < Real.pi then 0 else
          (if toIcoMod Real.two_pi_pos 0 (p - prev - -Real.pi) + -Real.pi = -Real.pi ∧ p - prev > 0 then 1 else 0) -
            toIcoDiv Real.two_pi_pos 0 (p - prev - -Real.pi)
      · have hd := toIcoMod_add_toIcoDiv_zsmul Real.two_pi_pos (0 : ℝ) (p - prev - -Real.pi)
        rw [zsmul_eq_mul] at hd
        split_ifs with h1 h2
        · simp
        · push_cast
          rw [one_sub_mul]
          have := h2.1
          linarith
        · push_cast
          rw [zero_sub, neg_mul]
          linarith
      · have hm := toIcoMod_mem_Ico Real.two_pi_pos (0 : ℝ) (p - prev - -Real.pi)
        rw [zero_add] at hm
        obtain ⟨hm1, hm2⟩ := hm
        split_ifs with h1 h2
        · rw [add_zero]; exact h1.le
        · rw [add_sub_cancel, abs_of_pos hpi]
        · rw [add_sub_cancel, abs_le]
          constructor <;> linarith
    obtain ⟨ph, k, hph, hle, he⟩ := hmod
    obtain ⟨h1, h2⟩ := ih p (corr + ph) ⟨n + k, by rw [hn, hph]; push_cast; ring⟩
    rw [he]
    refine ⟨List.Forall₂.cons ⟨n, by rw [hn]⟩ h1, List.IsChain.cons_cons ?_ h2⟩
    rw [show p + (corr + ph) - (prev + corr) = p - prev + ph by ring]
    exact hle

theorem unwrap_spec (N : ℕ) (h : ℕ → ℝ) : ∃ θ : ℕ → ℝ, npUnwrap ((List.range N).map h) = (List.range N).map θ ∧ (0 < N → θ 0 = h 0) ∧
    (∀ k < N, ∃ n : ℤ, θ k = h k + n * (2 * Real.pi)) ∧ ∀ k, k + 1 < N → |θ (k + 1) - θ k| ≤ Real.pi := by
  cases N with
  | zero => exact ⟨0, rfl, by simp, by simp, by simp⟩
  | succ N =>
    have e : npUnwrap ((List.range (N + 1)).map h) = (h 0 + 0) :: npUnwrapFrom (h 0) 0 ((List.range N).map fun k => h (k + 1)) := by
      rw [List.range_succ_eq_map, add_zero]
      simp only [List.map_cons, List.map_map]
      rfl
    obtain ⟨h1, h2⟩ := unwrapFrom_spec ((List.range N).map fun k => h (k + 1)) (h 0) 0 ⟨0, by simp⟩
    rw [← e] at h1 h2
    have e' : h 0 :: ((List.range N).map fun k => h (k + 1)) = (List.range (N + 1)).map h := by
      rw [List.range_succ_eq_map, List.map_cons, List.map_map]
      rfl
    rw [e'] at h1
    have hl : (npUnwrap ((List.range (N + 1)).map h)).length = N + 1 := by
      rw [← h1.length_eq]
      simp
    have hi : ∀ k < N + 1, (npUnwrap ((List.range (N + 1)).map h))[k]? = some ((npUnwrap ((List.range (N + 1)).map h)).getD k 0) := by
      intro k hk
      rw [List.getD_eq_getElem?_getD, List.getElem?_eq_getElem (by omega)]
      rfl
    refine ⟨fun k => (npUnwrap ((List.range (N + 1)).map h)).getD k 0, ?_, fun _ => ?_, fun k hk => ?_, fun k hk => ?_⟩
    · refine List.ext_getElem? fun k => ?_
      by_cases hk : k < N + 1
      · rw [hi k hk]
        simp [hk]
      · rw [List.getElem?_eq_none (by omega), List.getElem?_eq_none (by simp; omega)]
    · rw [e]
      simp
    · have := h1.get (i := k) (by simp; omega) (by omega)
      simpa [List.getD_eq_getElem?_getD, List.getElem?_eq_getElem (show k < (npUnwrap ((List.range (N + 1)).map h)).length by omega)] using this
    · have := List.isChain_iff_getElem.1 h2 k (by omega)
      simpa [List.getD_eq_getElem?_getD, List.getElem?_eq_getElem (show k < (npUnwrap ((List.range (N + 1)).map h)).length by omega),
        List.getElem?_eq_getElem (show k + 1 < (npUnwrap ((List.range (N + 1)).map h)).length by omega)] using this

theorem stride_spec {α : Type} (s N : ℕ) (hs : 0 < s) (f : ℕ → α) :
    npStride s ((List.range N).map f) = (List.range ((N + s - 1) / s)).map fun j => f (j * s) := by
  unfold npStride
  rw [List.length_map, List.length_range]
  refine Eq.trans (List.filterMap_congr (g := fun j => some (f (j * s))) fun j hj => ?_) (congrFun List.filterMap_eq_map _)
  have hj : j < (N + s - 1) / s := List.mem_range.1 hj
  have h1 : j * s < N := by
    have := Nat.mul_le_mul_right s (show j + 1 ≤ (N + s - 1) / s by omega)
    have h2 := Nat.div_mul_le_self (N + s - 1) s
    rw [Nat.add_mul] at this
    omega
  simp [h1]

theorem stride_count (s N j : ℕ) (hs : 0 < s) : j < (N + s - 1) / s ↔ j * s < N := by
  rw [Nat.lt_iff_add_one_le, Nat.le_div_iff_mul_le hs, Nat.add_mul]
  omega

/-- The headings before unwrapping. -/
noncomputable def nlHeading (N : ℕ) (x y : ℕ → ℝ) (k : ℕ) : ℝ :=
  if k + 1 < N then npArctan2 (y (k + 1) - y k) (x (k + 1) - x k) else if N = 1 then 0 else
    npArctan2 (y (N - 2 + 1) - y (N - 2)) (x (N - 2 + 1) - x (N - 2))

theorem heading_loop (N : ℕ) (x y : ℕ → ℝ) :
    (List.range (List.replicate N (0 : ℝ)).length).foldlM (nlHeadingStep ((List.range N).map x) ((List.range N).map y))
      (List.replicate N 0) = (.ok ((List.range N).map (nlHeading N x y)) : Py (List ℝ)) := by
  have hb : ∀ {α β : Type} (a : α) (f : α → Py β), ((Except.ok a : Py α) >>= f) = f a := fun _ _ => rfl
  have hg : ∀ {α : Type} (f : ℕ → α) (k N : ℕ), k < N → pyGet ((List.range N).map f) k = .ok (f k) := by
    intro α f k N h
    unfold pyGet
    simp [h]
  have hset : ∀ (t : ℕ) (v : ℝ), t < N → v = nlHeading N x y t →
      pySet ((List.range N).map fun k => if k < t then nlHeading N x y k else 0) t v =
        .ok ((List.range N).map fun k => if k < t + 1 then nlHeading N x y k else 0) := by
    intro t v ht hv
    unfold pySet
    rw [if_pos (by simpa using ht)]
    congr 1
    refine List.ext_getElem (by simp) fun k h1 h2 => ?_
    have hk : k < N := by simpa using h2
    rw [List.getElem_set]
    simp only [List.getElem_map, List.getElem_range]
    rcases lt_trichotomy k t with h | h | h
    · rw [if_neg (by omega), if_pos h, if_pos (by omega)]
    · subst h
      rw [if_pos rfl, if_pos (by omega), hv]
    · rw [if_neg (by omega), if_neg (by omega), if_neg (by omega)]
  have key : ∀ t ≤ N, (List.range t).foldlM (nlHeadingStep ((List.range N).map x) ((List.range N).map y)) (List.replicate N 0) =
      (.ok ((List.range N).map fun k => if k < t then nlHeading N x y k else 0) : Py (List ℝ)) := by
    intro t
    induction t with
    | zero =>
      intro _
      show (Except.ok (List.replicate N 0) : Py (List ℝ)) = _
      congr 1
      refine List.ext_getElem (by simp) fun k h1 h2 => by simp
    | succ t ih =>
      intro ht
      rw [List.range_succ, List.foldlM_append, ih (by omega), hb, List.foldlM_cons]
      have hs : nlHeadingStep ((List.range N).map x) ((List.range N).map y)
          ((List.range N).map fun k => if k < t then nlHeading N x y k else 0) t =
          .ok ((List.range N).map fun k => if k < t + 1 then nlHeading N x y k else 0) := by
        unfold nlHeadingStep
        rw [List.length_map, List.length_range]
        by_cases h : t + 1 < N
        · rw [if_pos (by omega), hg _ _ _ h, hb, hg _ _ _ (by omega), hb, hg _ _ _ h, hb, hg _ _ _ (by omega), hb]
          refine hset t _ (by omega) ?_
          unfold nlHeading
          rw [if_pos h]
        · rw [if_neg (by omega)]
          obtain rfl : t = N - 1 := by omega
          by_cases h1 : N - 1 = 0
          · rw [if_pos h1, hg _ _ _ (by omega), hb]
            refine hset _ _ (by omega) ?_
            rw [if_neg (by omega)]
            unfold nlHeading
            rw [if_neg h, if_pos (by omega)]
          · rw [if_neg h1, hg _ _ _ (by omega), hb]
            refine hset _ _ (by omega) ?_
            rw [if_pos (by omega), show N - 1 - 1 = N - 2 by omega]
            have e1 : nlHeading N x y (N - 2) = npArctan2 (y (N - 2 + 1) - y (N - 2)) (x (N - 2 + 1) - x (N - 2)) :=
              if_pos (by omega)
            have e2 : nlHeading N x y (N - 1) = npArctan2 (y (N - 2 + 1) - y (N - 2)) (x (N - 2 + 1) - x (N - 2)) := by
              unfold nlHeading
              rw [if_neg h, if_neg (by omega)]
            rw [e1, e2]
      rw [hs, hb]
      rfl
  rw [List.length_replicate, key N le_rfl]
  congr 1
  refine List.map_congr_left fun k hk => ?_
  rw [if_pos (List.mem_range.1 hk)]

theorem stack_spec (N : ℕ) (a b c : ℕ → ℝ) : List.zipWith (fun x yt => (![x, yt.1, yt.2] : Fin 3 → ℝ)) ((List.range N).map a)
    (List.zip ((List.range N).map b) ((List.range N).map c)) = (List.range N).map fun k => ![a k, b k, c k] := by
  refine List.ext_getElem (by simp) fun k h1 h2 => by simp

end Verif
