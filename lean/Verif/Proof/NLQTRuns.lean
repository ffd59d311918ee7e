import Verif.Props.NLQTStat

/-! Helper lemmas: repeated iterations of the nonlinear tracker. -/

namespace Verif

open Matrix

variable {n m : ℕ} {K : Type} [Field K]

theorem linearize_cost {M : NModel n m K} {P P' : LQT n m K} {us : List (Fin m → K)} {xs : List (Fin n → K)}
    (h : M.linearize P us xs = .ok P') (us' : List (Fin m → K)) (xs' : List (Fin n → K)) : P'.cost us' xs' = P.cost us' xs' := by
  obtain ⟨-, -, L, hL, rfl⟩ := linearize_iff.1 h
  have key : ∀ (k : ℕ) (f : ((Fin n → K) → (Fin m → K) → K) → Py K),
      (pyGet L k >>= fun s => f s.cost) = (pyGet P.stages k >>= fun s => f s.cost) := by
    intro k f
    rcases lt_or_ge k P.stages.length with hk | hk
    · obtain ⟨a1, a2⟩ := hL.2 k _ (List.getElem?_eq_getElem hk)
      have hP : pyGet P.stages k = .ok P.stages[k] := pyGet_eq.2 (List.getElem?_eq_getElem hk)
      rw [hP]
      rcases lt_or_ge k us.length with hk' | hk'
      · obtain ⟨x, u, -, -, h3⟩ := a1 hk'
        rw [pyGet_eq.2 h3]
        rfl
      · rw [pyGet_eq.2 (a2 hk')]
    · unfold pyGet
      rw [List.getElem?_eq_none hk, List.getElem?_eq_none (by rw [hL.1]; exact hk)]
  have hbody : (fun (res : K) (k : ℕ) => do
      let s ← pyGet L k
      let x ← pyGet xs' k
      let u ← pyGet us' k
      return res + s.cost x u : K → ℕ → Py K) = fun res k => do
      let s ← pyGet P.stages k
      let x ← pyGet xs' k
      let u ← pyGet us' k
      return res + s.cost x u := by
    funext res k
    exact key k fun c => do
      let x ← pyGet xs' k
      let u ← pyGet us' k
      return res + c x u
  unfold LQT.cost
  dsimp only
  rw [hbody]

section Ordered
variable [LinearOrder K] [IsStrictOrderedRing K]

/-- The iterations never fail on a convex problem. -/
theorem iterates_exist (M : NModel n m K) (P : LQT n m K) (hP : P.Convex) (hT : P.stages ≠ []) (x0 : Fin n → K)
    (us0 : List (Fin m → K)) (xs0 : List (Fin n → K)) (hu : us0.length = P.stages.length) (hx : us0.length + 1 = xs0.length)
    (h0 : xs0[0]? = some x0) :
    ∃ (Q : ℕ → LQT n m K) (us : ℕ → List (Fin m → K)) (xs : ℕ → List (Fin n → K)), Q 0 = P ∧ us 0 = us0 ∧ xs 0 = xs0 ∧
      ∀ i, (∀ k, M.iterate (Q i) (us i) (xs i) k = .ok (Q (i + 1), us (i + 1), xs (i + 1))) ∧ (Q i).Convex ∧
        (Q i).stages.length = P.stages.length ∧ (us i).length = P.stages.length ∧ (xs i).length = P.stages.length + 1 ∧
        (xs i)[0]? = some x0 ∧ ∀ us' xs', (Q i).cost us' xs' = P.cost us' xs' := by
  let Inv : LQT n m K × List (Fin m → K) × List (Fin n → K) → Prop := fun q => q.1.Convex ∧
    q.1.stages.length = P.stages.length ∧ q.2.1.length = P.stages.length ∧ q.2.2.length = P.stages.length + 1 ∧
    q.2.2[0]? = some x0 ∧ ∀ us' xs', q.1.cost us' xs' = P.cost us' xs'
  have step : ∀ q : {q // Inv q}, ∃ q' : {q // Inv q}, ∀ k, M.iterate q.1.1 q.1.2.1 q.1.2.2 k = .ok q'.1 := by
    rintro ⟨⟨Q, us, xs⟩, hc, h1, h2, h3, h4, h5⟩
    replace h1 : Q.stages.length = P.stages.length := h1
    replace h2 : us.length = P.stages.length := h2
    replace h3 : xs.length = P.stages.length + 1 := h3
    replace h4 : xs[0]? = some x0 := h4
    replace hc : Q.Convex := hc
    have hne : Q.stages ≠ [] := by
      rw [← List.length_pos_iff, h1]
      exact List.length_pos_iff.2 hT
    obtain ⟨⟨Q', us', xs'⟩, hr⟩ := C34_methods M Q hc hne us xs (by omega) (by omega) (by rw [← List.length_pos_iff]; omega)
    obtain ⟨hl, bw, y0, hb, hy, hf⟩ := iterate_seq hc.toSym (hr 2)
    obtain rfl : x0 = y0 := by rw [h4] at hy; exact Option.some.inj hy
    have hc' := linearize_convex hc hl
    obtain ⟨us'', hul, hf', -⟩ := seq_strict_min hc'.toSym hb x0
    rw [hf, Except.ok.injEq, Prod.mk.injEq] at hf'
    obtain ⟨rfl, rfl⟩ := hf'
    have hlen : Q'.stages.length = P.stages.length := by
      obtain ⟨-, -, L, hL, rfl⟩ := linearize_iff.1 hl
      exact hL.1.trans h1
    refine ⟨⟨(Q', us', x0 :: lqtRun Q'.stages x0 us'), hc', hlen, hul.trans hlen, ?_, rfl, fun a b => ?_⟩, hr⟩
    · show (x0 :: lqtRun Q'.stages x0 us').length = _
      rw [List.length_cons, lqtRun_length hul.le, hul, hlen]
    · exact (linearize_cost hl a b).trans (h5 a b)
  choose nxt hnxt using step
  let s : ℕ → {q // Inv q} := fun i => Nat.rec ⟨(P, us0, xs0), hP, rfl, hu, by show xs0.length = _; omega, h0, fun _ _ => rfl⟩
    (fun _ q => nxt q) i
  exact ⟨fun i => (s i).1.1, fun i => (s i).1.2.1, fun i => (s i).1.2.2, rfl, rfl, rfl, fun i => ⟨hnxt (s i), (s i).2⟩⟩

end Ordered

end Verif
