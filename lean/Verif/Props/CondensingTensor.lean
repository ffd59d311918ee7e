import Verif.Proof.CondensingTensorConvert
import Verif.Props.CondensingTF

/-! Property C100: the tensor operations of `condensing_tf.py`. -/

namespace Verif

open Matrix

variable {n m p q N : ℕ} {K : Type}

/-- C100 (block diagonals): `create_blkdiag` puts block `i` of item `k` at the rows `a i, …, a i + a - 1` and the columns
`b i, …, b i + b - 1` of item `k`, and zero everywhere else. -/
theorem C100_blkdiag [Field K] {B a b : ℕ} (hN : 0 < N) (t : Tens K) (ht : t.shape = [B, N, a, b]) :
    ∃ r, tensBlkdiag t = .ok r ∧ r.shape = [B, N * a, N * b] ∧
      ∀ k < B, ∀ i < N, ∀ j < N, ∀ x < a, ∀ y < b, r.val [k, x + a * i, y + b * j] = if i = j then t.val [k, i, x, y] else 0 := by
  obtain ⟨r, h1, h2, h3⟩ := tensBlkdiag_rep (t := t) (bs := List.range B) (f := fun k (i : Fin N) (x : Fin a) (y : Fin b) => t.val [k, i.val, x.val, y.val]) hN
    ⟨by simp [ht], fun k hk i x y => by simp⟩
  refine ⟨r, h1, by simp [h2], fun k hk i hi j hj x hx y hy => ?_⟩
  have := h3 k (by simpa using hk) (⟨i, hi⟩, ⟨x, hx⟩) (⟨j, hj⟩, ⟨y, hy⟩)
  simpa [blkDiag] using this

/-- C100 (condensing): on the tensors of a problem `condense` completes exactly when the block recursions do, its twelve tensors
hold the blocks, and otherwise it raises the same exception. -/
theorem C100_condense [Field K] [DecidableEq K] {ss : List (TStage n m p K)} {Fs cs Ls Hs rs Xs Us : Tens K}
    (h : StageTens ss Fs cs Ls Hs rs Xs Us) (hN : 0 < N) :
    (∀ bs, tfCondense N ss = .ok bs → ∃ c, tensCondense Fs cs Ls Hs rs Xs Us N = .ok c ∧ c.Holds bs) ∧
    ∀ e, tfCondense N ss = .error e → tensCondense Fs cs Ls Hs rs Xs Us N = .error e := tensCondense_rep h hN

/-- C100 (completion): it completes if and only if the cost of every block is rigid. -/
theorem C100_completion [Field K] [LinearOrder K] [IsStrictOrderedRing K] (P : TFLQT n m p q K) (hP : P.Sym) (hT : P.stages ≠ [])
    (hN : 0 < N) {Fs cs Ls Hs rs Xs Us : Tens K} (h : StageTens P.stages Fs cs Ls Hs rs Xs Us) :
    let rigid := ∀ k, N * k < P.stages.length → Rigid ((P.toLQT.stages.drop (N * k)).take N)
    (rigid ∧ ∃ c, tensCondense Fs cs Ls Hs rs Xs Us N = .ok c) ∨
      (¬ rigid ∧ tensCondense Fs cs Ls Hs rs Xs Us N = .error .linAlgError) := by
  intro rigid
  rcases C70_completion P hP hT hN with ⟨hr, bs, hbs⟩ | ⟨hr, he⟩
  · obtain ⟨c, hc, -⟩ := (C100_condense h hN).1 bs hbs
    exact .inl ⟨hr, c, hc⟩
  · exact .inr ⟨hr, (C100_condense h hN).2 _ he⟩

/-- C100 (blocks of length zero). -/
theorem C100_zero [Field K] [DecidableEq K] {ss : List (TStage n m p K)} {Fs cs Ls Hs rs Xs Us : Tens K}
    (h : StageTens ss Fs cs Ls Hs rs Xs Us) : tensCondense Fs cs Ls Hs rs Xs Us 0 = .error .zeroDivisionError := by
  unfold tensCondense
  exact bstep h.F.size0 rfl

/-- C100 (expansion): `convertUX` on tensors computes the controls and states of the block recursions. -/
theorem C100_convert [Field K] (hn : 0 < n) (hN : 0 < N) {bs : List (TCBlock N n m K)} {c : TensCond K} (hc : c.Holds bs)
    {us : List (Fin (N * m) → K)} {xs : List (Fin n → K)} {ut xt : Tens K}
    (hu : ut.IsVt (Equiv.refl _) us fun u => u) (hx : xt.IsVt (Equiv.refl _) xs fun x => x)
    (hul : us.length = bs.length) (hxl : xs.length = bs.length + 1) (T : ℕ) :
    ∃ us' xs' u x, tfConvertUX T bs us xs = .ok (us', xs') ∧ tensConvertUX ut xt c.Lambda c.cbar c.Lbar T = .ok (u, x) ∧
      u.IsVt (Equiv.refl _) us' (fun u => u) ∧ x.IsVt (Equiv.refl _) xs' fun x => x :=
  tensConvert_rep hn hN hc.Lambda hc.cbar hc.Lbar hu hx hul hxl T

/-- C100 (round trip): on the tensors of any condensed controls and of the states they lead to in the condensed problem,
`convertUX` gives the controls one after the other without those of the padding, and the states of the uncondensed problem. -/
theorem C100_round_trip [Field K] [LinearOrder K] [IsStrictOrderedRing K] (P : TFLQT n m p q K) (hP : P.Sym) (hT : P.stages ≠ [])
    (hn : 0 < n) (hN : 0 < N) {Fs cs Ls Hs rs Xs Us : Tens K} (h : StageTens P.stages Fs cs Ls Hs rs Xs Us) {c : TensCond K}
    (hc : tensCondense Fs cs Ls Hs rs Xs Us N = .ok c) (x0 : Fin n → K) :
    ∃ bs, c.Holds bs ∧ bs.length = (P.stages.length + N - 1) / N ∧ ∀ us : List (Fin (N * m) → K), us.length = bs.length →
      ∃ cxs, (P.condGen bs).toLQT.seqSimulation x0 us = .ok cxs ∧
        ∀ ut xt : Tens K, ut.IsVt (Equiv.refl _) us (fun u => u) → xt.IsVt (Equiv.refl _) cxs (fun x => x) →
          ∃ xs u x, P.toLQT.seqSimulation x0 ((splitControls N us).take P.stages.length) = .ok xs ∧
            tensConvertUX ut xt c.Lambda c.cbar c.Lbar P.stages.length = .ok (u, x) ∧
            u.IsVt (Equiv.refl _) ((splitControls N us).take P.stages.length) (fun u => u) ∧ x.IsVt (Equiv.refl _) xs fun x => x := by
  obtain ⟨h1, h2⟩ := C100_condense h hN
  cases hb : tfCondense N P.stages with
  | error e => rw [h2 e hb] at hc; cases hc
  | ok bs =>
    obtain ⟨c', hc', hh⟩ := h1 bs hb
    rw [hc] at hc'
    cases hc'
    obtain ⟨hl, _, hmain⟩ := C70_dynamics_cost P hP hT bs hb
    refine ⟨bs, hh, hl, fun us hu => ?_⟩
    obtain ⟨cxs, xs, -, -, e1, -, e3, -, -, -, e7⟩ := hmain x0 us hu
    refine ⟨cxs, e1, fun ut xt hut hxt => ?_⟩
    have hcl : (P.condGen bs).toLQT.stages.length = bs.length := by simp [TFGen.toLQT, TFLQT.condGen]
    have hxl : cxs.length = bs.length + 1 := by
      have := lqtSimulation_eq (P := (P.condGen bs).toLQT) (us := us) (by rw [hcl, hu]) x0
      rw [this] at e1
      cases e1
      rw [List.length_cons, lqtRun_length (by rw [hcl, hu]), hu]
    obtain ⟨us', xs', u, x, g1, g2, g3, g4⟩ := C100_convert hn hN hh hut hxt hu hxl P.stages.length
    rw [e7] at g1
    cases g1
    exact ⟨xs, u, x, e3, g2, g3, g4⟩

/-! ### Examples -/

/-- A tensor of vectors. -/
def tensRowsOf [Inhabited K] {a : ℕ} (l : List (Fin a → K)) : Tens K :=
  ⟨[l.length, a], fun i => if h : i.getD 1 0 < a then ((l[i.getD 0 0]?).map fun v => v ⟨_, h⟩).getD default else default⟩

/-- A tensor of matrices. -/
def tensMats [Inhabited K] {a b : ℕ} (l : List (Matrix (Fin a) (Fin b) K)) : Tens K :=
  ⟨[l.length, a, b], fun i => if h : i.getD 1 0 < a ∧ i.getD 2 0 < b then
    ((l[i.getD 0 0]?).map fun A => A ⟨_, h.1⟩ ⟨_, h.2⟩).getD default else default⟩

theorem tensRowsOf_is [Inhabited K] {β : Type} {a : ℕ} (l : List β) (f : β → Fin a → K) :
    (tensRowsOf (l.map f)).IsVt (Equiv.refl _) l f :=
  ⟨by simp [tensRowsOf], fun k hk i => by simp [tensRowsOf, hk]⟩

theorem tensMats_is [Inhabited K] {β : Type} {a b : ℕ} (l : List β) (f : β → Matrix (Fin a) (Fin b) K) :
    (tensMats (l.map f)).IsMt (Equiv.refl _) (Equiv.refl _) l f :=
  ⟨by simp [tensMats], fun k hk i j => by simp [tensMats, hk]⟩

/-- Every list of steps has tensors. -/
theorem C100_tensors [Inhabited K] (ss : List (TStage n m p K)) :
    StageTens ss (tensMats (ss.map (·.F))) (tensRowsOf (ss.map (·.c))) (tensMats (ss.map (·.L))) (tensMats (ss.map (·.H)))
      (tensRowsOf (ss.map (·.r))) (tensMats (ss.map (·.X))) (tensMats (ss.map (·.U))) :=
  ⟨tensMats_is _ _, tensRowsOf_is _ _, tensMats_is _ _, tensMats_is _ _, tensRowsOf_is _ _, tensMats_is _ _, tensMats_is _ _⟩

/-- Three steps in blocks of two: condensing the tensors completes with two items, and expanding any condensed controls gives
three controls and the states they lead to. -/
example (x0 : Fin 2 → ℚ) (us : List (Fin (2 * 1) → ℚ)) (hu : us.length = 2) : ∃ c bs cxs u x xs,
    tensCondense (tensMats (exTFCP.stages.map (·.F))) (tensRowsOf (exTFCP.stages.map (·.c))) (tensMats (exTFCP.stages.map (·.L)))
      (tensMats (exTFCP.stages.map (·.H))) (tensRowsOf (exTFCP.stages.map (·.r))) (tensMats (exTFCP.stages.map (·.X)))
      (tensMats (exTFCP.stages.map (·.U))) 2 = .ok c ∧ c.Holds bs ∧ bs.length = 2 ∧
    (exTFCP.condGen bs).toLQT.seqSimulation x0 us = .ok cxs ∧
    tensConvertUX (tensRowsOf us) (tensRowsOf cxs) c.Lambda c.cbar c.Lbar 3 = .ok (u, x) ∧
    exTFCP.toLQT.seqSimulation x0 ((splitControls 2 us).take 3) = .ok xs ∧ u.shape = [3, 1] ∧ x.IsVt (Equiv.refl _) xs fun x => x := by
  obtain ⟨-, -, bs', -, -, -, hb, -⟩ := exTFCP_solve x0
  have hP := exTFCP_convex.toSym
  have hT : exTFCP.stages ≠ [] := by simp [exTFCP]
  obtain ⟨c, hc, -⟩ := (C100_condense (C100_tensors exTFCP.stages) (N := 2) (by norm_num)).1 bs' hb
  obtain ⟨bs, hh, hl, hmain⟩ := C100_round_trip exTFCP hP hT (by norm_num) (by norm_num) (C100_tensors exTFCP.stages) hc x0
  have hl' : bs.length = 2 := hl
  obtain ⟨cxs, e1, e2⟩ := hmain us (hu.trans hl'.symm)
  obtain ⟨xs, u, x, g1, g2, g3, g4⟩ := e2 (tensRowsOf us) (tensRowsOf cxs) (by simpa using tensRowsOf_is us fun u => u)
    (by simpa using tensRowsOf_is cxs fun u => u)
  refine ⟨c, bs, cxs, u, x, xs, hc, hh, hl', e1, g2, g1, ?_, g4⟩
  rw [g3.1]
  obtain ⟨a, b, rfl⟩ : ∃ a b, us = [a, b] := by
    match us, hu with
    | [a, b], _ => exact ⟨a, b, rfl⟩
  rfl

/-- `create_blkdiag` of one item with the blocks `1 2` and `3 4`. -/
example : ∃ r, tensBlkdiag (⟨[1, 2, 1, 2], fun i => 2 * (i.getD 1 0 : ℚ) + i.getD 3 0 + 1⟩ : Tens ℚ) = .ok r ∧ r.shape = [1, 2, 4] ∧
    (List.range 2).map (fun i => (List.range 4).map fun j => r.val [0, i, j]) = [[1, 2, 0, 0], [0, 0, 3, 4]] :=
  ⟨_, rfl, rfl, by decide +kernel⟩

/-- The state weights and the control weights zero: the blocks are not rigid, and condensing raises an exception. -/
def exTFlat : TFLQT 1 1 1 1 ℚ := ⟨[⟨1, 0, 1, 1, 0, 0, 0⟩], 1, 0, 1⟩

example : tensCondense (tensMats (exTFlat.stages.map (·.F))) (tensRowsOf (exTFlat.stages.map (·.c))) (tensMats (exTFlat.stages.map (·.L)))
      (tensMats (exTFlat.stages.map (·.H))) (tensRowsOf (exTFlat.stages.map (·.r))) (tensMats (exTFlat.stages.map (·.X)))
      (tensMats (exTFlat.stages.map (·.U))) 1 = .error .linAlgError := by
  refine (C100_condense (C100_tensors exTFlat.stages) (by norm_num)).2 _ ?_
  have h : (match tfCondense 1 exTFlat.stages with | .error .linAlgError => true | _ => false) = true := by decide +kernel
  revert h
  cases tfCondense 1 exTFlat.stages with
  | ok => simp
  | error e => cases e <;> simp

end Verif
