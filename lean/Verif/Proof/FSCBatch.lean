import Verif.Proof.FSC
import Mathlib.Tactic.Ring
import Mathlib.Tactic.Linarith

/-! Finite-state control: exhaustive search `batch_solution`. -/

namespace Verif

variable {n m : ℕ} {K : Type}

/-- Position of a control list in the odometer order. -/
def odoVal : List (Fin m) → ℕ
  | [] => 0
  | u :: us => u.val + m * odoVal us

theorem odoVal_lt (us : List (Fin m)) : odoVal us < m ^ us.length := by
  induction us with
  | nil => simp [odoVal]
  | cons u us ih =>
    simp only [odoVal, List.length_cons]
    have h1 := u.isLt
    have h2 : m * (odoVal us + 1) ≤ m * m ^ us.length := Nat.mul_le_mul_left _ ih
    have h3 : m ^ (us.length + 1) = m * m ^ us.length := by rw [pow_succ, mul_comm]
    rw [h3]
    have h4 : m * (odoVal us + 1) = m * odoVal us + m := by ring
    omega

theorem odoVal_inj {us vs : List (Fin m)} (hl : us.length = vs.length) (h : odoVal us = odoVal vs) : us = vs := by
  induction us generalizing vs with
  | nil => cases vs with
    | nil => rfl
    | cons => simp at hl
  | cons u us ih =>
    cases vs with
    | nil => simp at hl
    | cons v vs =>
      simp only [odoVal] at h
      have hu := u.isLt
      have hv := v.isLt
      have h1 : u.val = v.val := by
        have := congrArg (· % m) h
        simpa [Nat.add_mul_mod_self_left, Nat.mod_eq_of_lt hu, Nat.mod_eq_of_lt hv] using this
      have h2 : odoVal us = odoVal vs := by
        have : m * odoVal us = m * odoVal vs := by omega
        exact Nat.eq_of_mul_eq_mul_left (by omega) this
      rw [ih (by simpa using hl) h2, Fin.ext h1]

theorem odoInc_spec [NeZero m] (us : List (Fin m)) :
    (odoInc us).1.length = us.length ∧
    ((odoInc us).2 = true → odoVal us + 1 = m ^ us.length) ∧
    ((odoInc us).2 = false → odoVal (odoInc us).1 = odoVal us + 1) := by
  have hm : 0 < m := Nat.pos_of_ne_zero (NeZero.ne m)
  induction us with
  | nil => simp [odoInc, odoVal]
  | cons u us ih =>
    obtain ⟨h1, h2, h3⟩ := ih
    unfold odoInc
    split
    · rename_i hu
      refine ⟨by simp [h1], ?_, ?_⟩
      · intro hd
        have := h2 hd
        simp only [odoVal, List.length_cons, pow_succ, ← this]
        rw [hu, Nat.add_mul, one_mul, mul_comm (odoVal us)]
        omega
      · intro hd
        have := h3 hd
        simp only [odoVal, this, hu, Fin.val_zero, Nat.mul_add]
        omega
    · refine ⟨by simp, by simp, ?_⟩
      intro _
      simp only [odoVal]
      omega

theorem odoInc_done [NeZero m] (us : List (Fin m)) :
    (odoInc us).2 = true ↔ odoVal us + 1 = m ^ us.length := by
  obtain ⟨h1, h2, h3⟩ := odoInc_spec us
  refine ⟨h2, fun h => ?_⟩
  by_contra hc
  have := h3 (by simpa using hc)
  have hlt := odoVal_lt (odoInc us).1
  rw [h1, this, h] at hlt
  exact lt_irrefl _ hlt

theorem odoVal_replicate [NeZero m] (k : ℕ) : odoVal (List.replicate k (0 : Fin m)) = 0 := by
  induction k with
  | zero => rfl
  | succ k ih => simp [List.replicate_succ, odoVal, ih]

section
variable [AddCommMonoid K]

theorem batchEval_eq (LT : Fin n → K) (ss : List (FStage n m K)) (us : List (Fin m)) (c : K) (x : Fin n)
    (h : us.length = ss.length) :
    (batchEval LT ss us c x).1 = c + totalCost LT ss x us ∧
      x :: (batchEval LT ss us c x).2 = statesOf ss x us := by
  induction ss generalizing us c x with
  | nil => cases us with
    | nil => exact ⟨rfl, by rw [statesOf_nil]; rfl⟩
    | cons => simp at h
  | cons s ss ih =>
    cases us with
    | nil => simp at h
    | cons u us =>
      obtain ⟨h1, h2⟩ := ih us (c + s.L x u) (s.f x u) (by simpa using h)
      refine ⟨?_, ?_⟩
      · simp only [batchEval, totalCost]; rw [h1, add_assoc]
      · simp only [batchEval]; rw [h2, statesOf_cons]

variable [LinearOrder K] [NeZero m]

/-- Invariant after `j` iterations. -/
structure BatchInv (cap : K) (M : FSC n m K) (x0 : Fin n) (j : ℕ) (st : BatchState n m K) : Prop where
  done : st.done = true ↔ j = m ^ M.stages.length
  len : st.u_list.length = M.stages.length
  cur : j < m ^ M.stages.length → odoVal st.u_list = j
  le_cap : st.min_cost ≤ cap
  le : ∀ us : List (Fin m), us.length = M.stages.length → odoVal us < j →
    st.min_cost ≤ totalCost M.LT M.stages x0 us
  found : (st.min_cost = cap ∧ st.min_u_list = List.replicate M.stages.length 0 ∧ st.min_x_list = []) ∨
    (st.min_cost < cap ∧ st.min_u_list.length = M.stages.length ∧
      st.min_cost = totalCost M.LT M.stages x0 st.min_u_list ∧
      st.min_x_list = statesOf M.stages x0 st.min_u_list ∧
      ∀ us : List (Fin m), us.length = M.stages.length → odoVal us < odoVal st.min_u_list →
        st.min_cost < totalCost M.LT M.stages x0 us)

theorem BatchInv.step {cap : K} {M : FSC n m K} {x0 : Fin n} {j : ℕ} {st : BatchState n m K}
    (h : BatchInv cap M x0 j st) (hj : j < m ^ M.stages.length) :
    BatchInv cap M x0 (j + 1) (batchStep M x0 st) := by
  have hcur := h.cur hj
  obtain ⟨hE1, hE2⟩ := batchEval_eq M.LT M.stages st.u_list 0 x0 h.len
  rw [zero_add] at hE1
  obtain ⟨o1, o2, o3⟩ := odoInc_spec st.u_list
  have odone := odoInc_done st.u_list
  rw [h.len, hcur] at odone
  have hcur' : j + 1 < m ^ M.stages.length → odoVal (odoInc st.u_list).1 = j + 1 := by
    intro hlt
    rw [o3, hcur]
    rw [← Bool.not_eq_true, odone]; omega
  have hsplit : ∀ us : List (Fin m), us.length = M.stages.length → odoVal us < j + 1 →
      odoVal us < j ∨ us = st.u_list := by
    intro us hus hlt
    rcases Nat.lt_or_eq_of_le (Nat.lt_succ_iff.1 hlt) with h' | h'
    · exact Or.inl h'
    · exact Or.inr (odoVal_inj (hus.trans h.len.symm) (h'.trans hcur.symm))
  unfold batchStep
  simp only
  split
  · rename_i hlt
    rw [hE1] at hlt
    refine ⟨odone, by simp [o1, h.len], hcur', ?_, ?_, Or.inr ⟨?_, h.len, hE1, hE2, ?_⟩⟩
    · simp only [hE1]; exact hlt.le.trans h.le_cap
    · intro us hus hv
      simp only [hE1]
      rcases hsplit us hus hv with h' | rfl
      · exact hlt.le.trans (h.le us hus h')
      · exact le_rfl
    · simp only [hE1]; exact hlt.trans_le h.le_cap
    · intro us hus hv
      simp only [hE1]
      simp only [hcur] at hv
      exact hlt.trans_le (h.le us hus hv)
  · rename_i hlt
    rw [hE1] at hlt
    refine ⟨odone, by simp [o1, h.len], hcur', h.le_cap, ?_, h.found⟩
    intro us hus hv
    rcases hsplit us hus hv with h' | rfl
    · exact h.le us hus h'
    · exact not_lt.1 hlt

theorem batch_runs (cap : K) (M : FSC n m K) (x0 : Fin n) (hT : M.stages ≠ []) :
    ∃ st st', batchInit cap M = .ok st ∧ BatchRuns M x0 st (m ^ M.stages.length) st' ∧
      BatchInv cap M x0 (m ^ M.stages.length) st' ∧
      ∀ j < m ^ M.stages.length, BatchInv cap M x0 j ((batchStep M x0)^[j] st) := by
  have hm : 0 < m ^ M.stages.length := Nat.pow_pos (Nat.pos_of_ne_zero (NeZero.ne m))
  let st : BatchState n m K := 
    ⟨List.replicate M.stages.length 0, List.replicate M.stages.length 0, [], cap, false⟩
  have hst : batchInit cap M = .ok st := by
    unfold batchInit
    split
    · rename_i h; exact absurd h hT
    · rfl
  have hinv : ∀ j ≤ m ^ M.stages.length, BatchInv cap M x0 j ((batchStep M x0)^[j] st) := by
    intro j
    induction j with
    | zero =>
      intro _
      refine ⟨by simp [st]; omega, by simp [st], fun _ => odoVal_replicate _, le_rfl, ?_, Or.inl ⟨rfl, rfl, rfl⟩⟩
      intro us _ h; omega
    | succ j ih =>
      intro hj
      rw [Function.iterate_succ_apply']
      exact (ih (by omega)).step (by omega)
  refine ⟨st, (batchStep M x0)^[m ^ M.stages.length] st, hst, ⟨rfl, (hinv _ le_rfl).done.2 rfl, ?_⟩, hinv _ le_rfl,
    fun j hj => hinv j hj.le⟩
  intro j hj
  rw [← Bool.not_eq_true, (hinv j hj.le).done]
  omega

end

end Verif
