import Verif.Spec.Viterbi
import Verif.Proof.FSC
import Mathlib.Algebra.Order.Ring.Defs
import Mathlib.Order.Basic
import Mathlib.Tactic.Ring
import Mathlib.Data.List.Induction

/-! Viterbi decoding. -/

namespace Verif

variable {n q : ℕ} {P K : Type}

/-! ### argmax -/

section Argmax
variable [LinearOrder P] [NeZero n]

theorem argmax1_dual (v : Fin n → P) : argmax1 v = argmin1 (fun i => OrderDual.toDual (v i)) := rfl

theorem max1_dual (v : Fin n → P) : max1 v = OrderDual.ofDual (min1 (fun i => OrderDual.toDual (v i))) := rfl

theorem le_max1 (v : Fin n → P) (i : Fin n) : v i ≤ max1 v := min1_le (fun i => OrderDual.toDual (v i)) i

theorem max1_attained (v : Fin n → P) : ∃ i, max1 v = v i := min1_attained (fun i => OrderDual.toDual (v i))

theorem le_argmax1 (v : Fin n → P) (i : Fin n) : v i ≤ v (argmax1 v) :=
  argmin1_le (fun i => OrderDual.toDual (v i)) i

theorem argmax1_val (v : Fin n → P) : v (argmax1 v) = max1 v := argmin1_val (fun i => OrderDual.toDual (v i))

/-- The first maximiser is the first minimiser of an order-reversing image. -/
theorem argmin1_eq_argmax1 [LinearOrder K] {v : Fin n → K} {w : Fin n → P} (h : ∀ i j, v i ≤ v j ↔ w j ≤ w i) :
    argmin1 v = argmax1 w := by
  rw [argmax1_dual]
  apply argmin1_unique
  · intro j; rw [h]; exact argmin1_le (fun i => OrderDual.toDual (w i)) j
  · intro j hj
    have := argmin1_first (fun i => OrderDual.toDual (w i)) j hj
    rw [← not_le] at this ⊢
    rwa [h]

theorem argmax1_congr {v w : Fin n → P} (h : ∀ i j, v i ≤ v j ↔ w i ≤ w j) : argmax1 v = argmax1 w := by
  rw [argmax1_dual, argmax1_dual]
  exact argmin1_eq_of (fun i j => h j i)

end Argmax

/-! ### Accumulating loops -/

/-- States of a fold, from the initial one on. -/
def accList {S Y : Type} (g : S → Y → S) : S → List Y → List S
  | V, [] => [V]
  | V, y :: ys => V :: accList g (g V y) ys

theorem foldl_acc {S Y : Type} (g : S → Y → S) (ys : List Y) (V : S) (l : List S) :
    (ys.foldl (fun (st : S × List S) y => (g st.1 y, st.2 ++ [g st.1 y])) (V, l ++ [V])).2 = l ++ accList g V ys := by
  induction ys generalizing V l with
  | nil => rfl
  | cons y ys ih =>
    rw [List.foldl_cons, ih (g V y) (l ++ [V])]
    simp [accList]

theorem accList_length {S Y : Type} (g : S → Y → S) (V : S) (ys : List Y) :
    (accList g V ys).length = ys.length + 1 := by
  induction ys generalizing V with
  | nil => rfl
  | cons y ys ih => simp [accList, ih]

theorem accList_get {S Y : Type} (g : S → Y → S) (V : S) (ys : List Y) (k : ℕ) (hk : k ≤ ys.length) :
    (accList g V ys)[k]? = some ((ys.take k).foldl g V) := by
  induction ys generalizing V k with
  | nil => obtain rfl : k = 0 := by simpa using hk
           rfl
  | cons y ys ih =>
    cases k with
    | zero => rfl
    | succ k => simpa [accList] using ih (g V y) k (by simpa using hk)

theorem accList_ne_nil {S Y : Type} (g : S → Y → S) (V : S) (ys : List Y) : accList g V ys ≠ [] := by
  cases ys <;> simp [accList]

theorem accList_getLast {S Y : Type} (g : S → Y → S) (V : S) (ys : List Y) :
    (accList g V ys).getLast? = some (ys.foldl g V) := by
  rw [List.getLast?_eq_getElem?, accList_length, Nat.add_sub_cancel, accList_get _ _ _ _ le_rfl, List.take_length]

/-! ### Reference algorithm -/

section Ref
variable [CommSemiring P] [LinearOrder P] [IsOrderedRing P] [NeZero n]

/-- One step of the probability recursion. -/
def HMM.refStep (H : HMM n q P) (V : Fin n → P) (y : Fin q) : Fin n → P :=
  fun x => max1 fun j => H.Po x y * H.Pi j x * V j

omit [IsOrderedRing P] in
theorem refForward_eq (H : HMM n q P) (ys : List (Fin q)) : H.refForward ys = accList H.refStep H.prior ys :=
  foldl_acc H.refStep ys H.prior []

theorem tailProb_nonneg (H : HMM n q P) (hPi : ∀ i j, 0 ≤ H.Pi i j) (hPo : ∀ i y, 0 ≤ H.Po i y) (x : Fin n)
    (ys : List (Fin q)) (xs : List (Fin n)) : 0 ≤ H.tailProb x ys xs := by
  induction ys generalizing x xs with
  | nil => simp [HMM.tailProb]
  | cons y ys ih =>
    cases xs with
    | nil => simp [HMM.tailProb]
    | cons x' xs =>
      simp only [HMM.tailProb]
      exact mul_nonneg (mul_nonneg (hPi _ _) (hPo _ _)) (ih _ _)

/-- Backtracking through the value rows finds the best path from the value `V` on. -/
theorem refBackward_spec (H : HMM n q P) (hPi : ∀ i j, 0 ≤ H.Pi i j) (hPo : ∀ i y, 0 ≤ H.Po i y)
    (ys : List (Fin q)) (V : Fin n → P) :
    ∃ x xs, H.refBackward (accList H.refStep V ys) = x :: xs ∧ xs.length = ys.length ∧
      ∀ z zs, zs.length = ys.length → V z * H.tailProb z ys zs ≤ V x * H.tailProb x ys xs := by
  induction ys generalizing V with
  | nil =>
    refine ⟨argmax1 V, [], rfl, rfl, fun z zs _ => ?_⟩
    cases zs <;> simpa [HMM.tailProb] using le_argmax1 V z
  | cons y ys ih =>
    obtain ⟨x, xs, h1, h2, h3⟩ := ih (H.refStep V y)
    refine ⟨argmax1 (fun j => H.Pi j x * V j), x :: xs, ?_, by simp [h2], ?_⟩
    · have : H.refBackward (accList H.refStep V (y :: ys)) =
        (match H.refBackward (accList H.refStep (H.refStep V y) ys) with
          | [] => [argmax1 V]
          | x :: r => argmax1 (fun j => H.Pi j x * V j) :: x :: r) := by
        unfold HMM.refBackward
        simp only [accList, List.foldr_cons]
        split <;> simp_all
      rw [this, h1]
    · intro z zs hz
      cases zs with
      | nil => simp at hz
      | cons z' zs =>
        set b := argmax1 (fun j => H.Pi j x * V j) with hb
        have hval : H.refStep V y x = V b * (H.Pi b x * H.Po x y) := by
          unfold HMM.refStep
          apply le_antisymm
          · obtain ⟨j, hj⟩ := max1_attained (fun j => H.Po x y * H.Pi j x * V j)
            rw [hj]
            have h := mul_le_mul_of_nonneg_left (le_argmax1 (fun j => H.Pi j x * V j) j) (hPo x y)
            rw [← hb] at h
            calc H.Po x y * H.Pi j x * V j = H.Po x y * (H.Pi j x * V j) := by ring
              _ ≤ H.Po x y * (H.Pi b x * V b) := h
              _ = _ := by ring
          · have h := le_max1 (fun j => H.Po x y * H.Pi j x * V j) b
            refine le_trans (le_of_eq ?_) h
            ring
        have hle : V z * (H.Pi z z' * H.Po z' y) ≤ H.refStep V y z' := by
          have h := le_max1 (fun j => H.Po z' y * H.Pi j z' * V j) z
          refine le_trans (le_of_eq ?_) h
          ring
        simp only [HMM.tailProb]
        calc V z * (H.Pi z z' * H.Po z' y * H.tailProb z' ys zs)
            = V z * (H.Pi z z' * H.Po z' y) * H.tailProb z' ys zs := by ring
          _ ≤ H.refStep V y z' * H.tailProb z' ys zs :=
            mul_le_mul_of_nonneg_right hle (tailProb_nonneg H hPi hPo _ _ _)
          _ ≤ H.refStep V y x * H.tailProb x ys xs := h3 z' zs (by simpa using hz)
          _ = V b * (H.Pi b x * H.Po x y) * H.tailProb x ys xs := by rw [hval]
          _ = _ := by ring

omit [LinearOrder P] [IsOrderedRing P] [NeZero n] in
theorem tailProb_snoc (H : HMM n q P) (ys : List (Fin q)) (y : Fin q) (x : Fin n) (xs : List (Fin n)) (x' z : Fin n)
    (hl : xs.length = ys.length) (hz : (x :: xs).getLast? = some z) :
    H.tailProb x (ys ++ [y]) (xs ++ [x']) = H.tailProb x ys xs * (H.Pi z x' * H.Po x' y) := by
  induction ys generalizing x xs with
  | nil =>
    have : xs = [] := by simpa using hl
    subst this
    have : x = z := by simpa using hz
    subst this
    simp [HMM.tailProb]
  | cons y' ys ih =>
    cases xs with
    | nil => simp at hl
    | cons w xs =>
      simp only [List.cons_append, HMM.tailProb]
      rw [ih w xs (by simpa using hl) (by simpa using hz)]
      ring

omit [LinearOrder P] [IsOrderedRing P] [NeZero n] in
theorem jointProb_snoc (H : HMM n q P) (ys : List (Fin q)) (y : Fin q) (xs : List (Fin n)) (x' z : Fin n)
    (hl : xs.length = ys.length + 1) (hz : xs.getLast? = some z) :
    H.jointProb (ys ++ [y]) (xs ++ [x']) = H.jointProb ys xs * (H.Pi z x' * H.Po x' y) := by
  cases xs with
  | nil => simp at hl
  | cons x xs =>
    simp only [List.cons_append, HMM.jointProb]
    rw [tailProb_snoc H ys y x xs x' z (by simpa using hl) hz, mul_assoc]

theorem refStep_foldl_isGreatest (H : HMM n q P) (hPi : ∀ i j, 0 ≤ H.Pi i j) (hPo : ∀ i y, 0 ≤ H.Po i y)
    (ys : List (Fin q)) (x : Fin n) :
    IsGreatest {p | ∃ xs : List (Fin n), xs.length = ys.length + 1 ∧ xs.getLast? = some x ∧ p = H.jointProb ys xs}
      (ys.foldl H.refStep H.prior x) := by
  induction ys using List.reverseRecOn generalizing x with
  | nil =>
    constructor
    · exact ⟨[x], rfl, rfl, by simp [HMM.jointProb, HMM.tailProb]⟩
    · rintro _ ⟨xs, hl, hx, rfl⟩
      obtain ⟨a, rfl⟩ := List.length_eq_one_iff.1 hl
      have : a = x := by simpa using hx
      subst this
      simp [HMM.jointProb, HMM.tailProb]
  | append_singleton ys y ih =>
    rw [List.foldl_append]
    simp only [List.foldl_cons, List.foldl_nil]
    set V := ys.foldl H.refStep H.prior
    constructor
    · obtain ⟨j, hj⟩ := max1_attained (fun j => H.Po x y * H.Pi j x * V j)
      obtain ⟨xs, hl, hx, hp⟩ := (ih j).1
      refine ⟨xs ++ [x], by simp [hl], by simp, ?_⟩
      rw [jointProb_snoc H ys y xs x j hl hx, ← hp]
      refine hj.trans ?_
      ring
    · rintro _ ⟨xs, hl, hx, rfl⟩
      rcases List.eq_nil_or_concat xs with h | ⟨zs, w, h⟩
      · subst h; simp at hl
      · have h : xs = zs ++ [w] := by simpa using h
        subst h
        have hw : w = x := by simpa using hx
        subst hw
        have hlz : zs.length = ys.length + 1 := by simpa using hl
        obtain ⟨z, hz⟩ : ∃ z, zs.getLast? = some z := by
          cases zs with
          | nil => simp at hlz
          | cons a as => exact ⟨_, List.getLast?_eq_getLast_of_ne_nil (by simp)⟩
        rw [jointProb_snoc H ys y zs w z hlz hz]
        have h1 := (ih z).2 ⟨zs, hlz, hz, rfl⟩
        have h2 := mul_le_mul_of_nonneg_right h1 (mul_nonneg (hPi z w) (hPo w y))
        refine h2.trans (le_trans (le_of_eq ?_) (le_max1 (fun j => H.Po w y * H.Pi j w * V j) z))
        ring

end Ref

/-! ### Negative logarithms -/

/-- `nl` behaves like `-log` on the numbers satisfying `S`. -/
structure IsNegLog [CommSemiring P] [LinearOrder P] [AddCommMonoid K] [LinearOrder K] (S : P → Prop) (nl : P → K) :
    Prop where
  one : S 1
  mul : ∀ {a b}, S a → S b → S (a * b)
  nl_one : nl 1 = 0
  nl_mul : ∀ {a b}, S a → S b → nl (a * b) = nl a + nl b
  nl_le : ∀ {a b}, S a → S b → (nl a ≤ nl b ↔ b ≤ a)

/-- All entries of the model satisfy `S`. -/
structure HMM.All (H : HMM n q P) (S : P → Prop) : Prop where
  prior : ∀ x, S (H.prior x)
  Pi : ∀ i j, S (H.Pi i j)
  Po : ∀ i y, S (H.Po i y)

section NegLog
variable [CommSemiring P] [LinearOrder P] [AddCommMonoid K] [LinearOrder K] {S : P → Prop} {nl : P → K}

theorem IsNegLog.min1 [NeZero n] (h : IsNegLog S nl) {v : Fin n → P} (hv : ∀ i, S (v i)) :
    Verif.min1 (fun i => nl (v i)) = nl (max1 v) := by
  obtain ⟨i, hi⟩ := max1_attained v
  apply min1_eq
  · intro j
    rw [hi, h.nl_le (hv i) (hv j), ← hi]
    exact le_max1 v j
  · exact ⟨i, by rw [hi]⟩

theorem IsNegLog.argmin1 [NeZero n] (h : IsNegLog S nl) {v : Fin n → P} (hv : ∀ i, S (v i)) :
    Verif.argmin1 (fun i => nl (v i)) = argmax1 v :=
  argmin1_eq_argmax1 (fun i j => h.nl_le (hv i) (hv j))

theorem max1_mem [NeZero n] {v : Fin n → P} (hv : ∀ i, S (v i)) : S (max1 v) := by
  obtain ⟨i, hi⟩ := max1_attained v
  rw [hi]; exact hv i

theorem tailProb_mem (h : IsNegLog S nl) {H : HMM n q P} (hH : H.All S) (x : Fin n) (ys : List (Fin q))
    (xs : List (Fin n)) : S (H.tailProb x ys xs) := by
  induction ys generalizing x xs with
  | nil => simpa [HMM.tailProb] using h.one
  | cons y ys ih =>
    cases xs with
    | nil => simpa [HMM.tailProb] using h.one
    | cons x' xs =>
      simp only [HMM.tailProb]
      exact h.mul (h.mul (hH.Pi _ _) (hH.Po _ _)) (ih _ _)

theorem jointProb_mem (h : IsNegLog S nl) {H : HMM n q P} (hH : H.All S) (ys : List (Fin q)) (xs : List (Fin n)) :
    S (H.jointProb ys xs) := by
  cases xs with
  | nil => exact h.one
  | cons x xs => exact h.mul (hH.prior x) (tailProb_mem h hH _ _ _)

end NegLog

/-! ### Log-domain algorithms -/

section Log
variable [CommSemiring P] [LinearOrder P] [AddCommMonoid K] [LinearOrder K] [NeZero n] {S : P → Prop} {nl : P → K}

/-- One step of the log recursion. -/
def HMM.logStep (nl : P → K) (H : HMM n q P) (V : Fin n → K) (y : Fin q) : Fin n → K :=
  fun x => min1 fun j => H.logTemp nl V y j x

omit [CommSemiring P] [LinearOrder P] in
theorem logForward_eq (H : HMM n q P) (ys : List (Fin q)) :
    H.logForward nl ys = accList (H.logStep nl) (fun x => nl (H.prior x)) ys :=
  foldl_acc (H.logStep nl) ys _ []

/-- Policies of the log recursion. -/
def HMM.logPols (nl : P → K) (H : HMM n q P) : (Fin n → K) → List (Fin q) → List (Fin n → Fin n)
  | _, [] => []
  | V, y :: ys => (fun x => argmin1 fun j => H.logTemp nl V y j x) :: H.logPols nl (H.logStep nl V y) ys

omit [CommSemiring P] [LinearOrder P] in
theorem logForward2_eq (H : HMM n q P) (ys : List (Fin q)) :
    H.logForward2 nl ys = (H.logPols nl (fun x => nl (H.prior x)) ys,
      accList (H.logStep nl) (fun x => nl (H.prior x)) ys) := by
  have key : ∀ (ys : List (Fin q)) (V : Fin n → K) (us : List (Fin n → Fin n)) (l : List (Fin n → K)),
      (ys.foldl (fun (st : (Fin n → K) × List (Fin n → Fin n) × List (Fin n → K)) y =>
        (H.logStep nl st.1 y, st.2.1 ++ [fun x => argmin1 fun j => H.logTemp nl st.1 y j x],
          st.2.2 ++ [H.logStep nl st.1 y])) (V, us, l ++ [V])).2 =
      (us ++ H.logPols nl V ys, l ++ accList (H.logStep nl) V ys) := by
    intro ys
    induction ys with
    | nil => intro V us l; simp [HMM.logPols, accList]
    | cons y ys ih =>
      intro V us l
      rw [List.foldl_cons, ih]
      simp [HMM.logPols, accList]
  exact key ys _ [] []

/-- The backtracking fold over the policies. -/
def backFold (us : List (Fin n → Fin n)) (acc : List (Fin n)) : List (Fin n) :=
  us.foldr (fun u v_map =>
      match v_map with
      | [] => []
      | x :: _ => u x :: v_map) acc

omit [NeZero n] in
theorem backFold_cons (u : Fin n → Fin n) (us : List (Fin n → Fin n)) (acc : List (Fin n)) :
    backFold (u :: us) acc = match backFold us acc with
      | [] => []
      | x :: r => u x :: x :: r := by
  unfold backFold
  rw [List.foldr_cons]
  split <;> simp_all

omit [CommSemiring P] [LinearOrder P] in
theorem refViterbiLog2_eq (H : HMM n q P) (ys : List (Fin q)) :
    H.refViterbiLog2 nl ys = .ok (backFold (H.logPols nl (fun x => nl (H.prior x)) ys)
      [argmin1 (ys.foldl (H.logStep nl) (fun x => nl (H.prior x)))],
      accList (H.logStep nl) (fun x => nl (H.prior x)) ys) := by
  unfold HMM.refViterbiLog2
  simp only [logForward2_eq, accList_getLast]
  rfl

omit [CommSemiring P] [LinearOrder P] in
theorem logBackward_eq (H : HMM n q P) (ys : List (Fin q)) (V : Fin n → K) :
    ∃ x r, H.logBackward nl (accList (H.logStep nl) V ys) ys = .ok (x :: r) ∧
      backFold (H.logPols nl V ys) [argmin1 (ys.foldl (H.logStep nl) V)] = x :: r := by
  induction ys generalizing V with
  | nil => exact ⟨_, _, rfl, rfl⟩
  | cons y ys ih =>
    obtain ⟨x, r, h1, h2⟩ := ih (H.logStep nl V y)
    refine ⟨argmin1 (fun j => H.logTemp nl V y j x), x :: r, ?_, ?_⟩
    · simp only [accList, HMM.logBackward, List.tail_cons]
      rw [h1]
      rfl
    · simp only [HMM.logPols, List.foldl_cons]
      rw [backFold_cons, h2]

omit [CommSemiring P] [LinearOrder P] in
theorem refViterbiLog_eq (H : HMM n q P) (ys : List (Fin q)) :
    H.refViterbiLog nl ys = H.refViterbiLog2 nl ys := by
  rw [refViterbiLog2_eq]
  obtain ⟨x, r, h1, h2⟩ := logBackward_eq (nl := nl) H ys (fun x => nl (H.prior x))
  unfold HMM.refViterbiLog
  simp only [logForward_eq]
  rw [h1, h2]
  rfl

theorem logStep_nl (h : IsNegLog S nl) {H : HMM n q P} (hH : H.All S) {V : Fin n → P} (hV : ∀ x, S (V x)) (y : Fin q) :
    H.logStep nl (fun x => nl (V x)) y = fun x => nl (H.refStep V y x) := by
  funext x
  unfold HMM.logStep HMM.logTemp HMM.refStep
  rw [← h.min1 (fun j => h.mul (h.mul (hH.Po _ _) (hH.Pi _ _)) (hV j))]
  congr 1
  funext j
  rw [h.nl_mul (h.mul (hH.Po _ _) (hH.Pi _ _)) (hV j), h.nl_mul (hH.Po _ _) (hH.Pi _ _)]

theorem refStep_mem (h : IsNegLog S nl) {H : HMM n q P} (hH : H.All S) {V : Fin n → P} (hV : ∀ x, S (V x)) (y : Fin q)
    (x : Fin n) : S (H.refStep V y x) :=
  max1_mem (fun j => h.mul (h.mul (hH.Po _ _) (hH.Pi _ _)) (hV j))

theorem accList_nl (h : IsNegLog S nl) {H : HMM n q P} (hH : H.All S) (ys : List (Fin q)) (V : Fin n → P)
    (hV : ∀ x, S (V x)) :
    accList (H.logStep nl) (fun x => nl (V x)) ys = (accList H.refStep V ys).map (fun V x => nl (V x)) := by
  induction ys generalizing V with
  | nil => rfl
  | cons y ys ih =>
    simp only [accList, List.map_cons]
    rw [logStep_nl h hH hV, ih _ (refStep_mem h hH hV y)]

/-- If the best value is positive, backtracking in probabilities and in logarithms coincide. -/
theorem backtrack_eq [IsStrictOrderedRing P] (h : IsNegLog S nl) {H : HMM n q P} (hH : H.All S)
    (hpos : ∀ p, S p → 0 ≤ p) (ys : List (Fin q)) (V : Fin n → P) (hV : ∀ x, S (V x))
    (hex : ∃ x, 0 < ys.foldl H.refStep V x) :
    ∃ x r, H.refBackward (accList H.refStep V ys) = x :: r ∧ 0 < V x ∧
      backFold (H.logPols nl (fun x => nl (V x)) ys)
        [argmin1 (ys.foldl (H.logStep nl) (fun x => nl (V x)))] = x :: r := by
  induction ys generalizing V with
  | nil =>
    refine ⟨argmax1 V, [], rfl, ?_, ?_⟩
    · obtain ⟨x, hx⟩ := hex
      exact lt_of_lt_of_le hx (le_argmax1 V x)
    · simp only [HMM.logPols, backFold, List.foldl_nil, List.foldr_nil]
      rw [h.argmin1 hV]
  | cons y ys ih =>
    obtain ⟨x, r, h1, h2, h3⟩ := ih (H.refStep V y) (refStep_mem h hH hV y) hex
    have hval := argmax1_val (fun j => H.Po x y * H.Pi j x * V j)
    have hPo : 0 < H.Po x y := by
      rcases (hpos _ (hH.Po x y)).lt_or_eq with hp | hp
      · exact hp
      · exfalso
        have : H.refStep V y x = 0 := by
          unfold HMM.refStep
          rw [← hval, ← hp]
          ring
        rw [this] at h2
        exact lt_irrefl _ h2
    have harg : argmax1 (fun j => H.Po x y * H.Pi j x * V j) = argmax1 (fun j => H.Pi j x * V j) := by
      apply argmax1_congr
      intro i j
      rw [mul_assoc, mul_assoc]
      exact mul_le_mul_iff_right₀ hPo
    refine ⟨argmax1 (fun j => H.Pi j x * V j), x :: r, ?_, ?_, ?_⟩
    · have : H.refBackward (accList H.refStep V (y :: ys)) =
        (match H.refBackward (accList H.refStep (H.refStep V y) ys) with
          | [] => [argmax1 V]
          | x :: r => argmax1 (fun j => H.Pi j x * V j) :: x :: r) := by
        unfold HMM.refBackward
        simp only [accList, List.foldr_cons]
        split <;> simp_all
      rw [this, h1]
    · rw [← harg]
      set b := argmax1 (fun j => H.Po x y * H.Pi j x * V j)
      rcases (hpos _ (hV b)).lt_or_eq with hp | hp
      · exact hp
      · exfalso
        have : H.refStep V y x = 0 := by
          unfold HMM.refStep
          rw [← hval, ← hp]
          ring
        rw [this] at h2
        exact lt_irrefl _ h2
    · simp only [HMM.logPols, List.foldl_cons]
      rw [backFold_cons]
      rw [logStep_nl h hH hV, h3]
      simp only
      congr 1
      rw [← harg, ← h.argmin1 (fun j => h.mul (h.mul (hH.Po _ _) (hH.Pi _ _)) (hV j))]
      congr 1
      funext j
      rw [h.nl_mul (h.mul (hH.Po _ _) (hH.Pi _ _)) (hV j), h.nl_mul (hH.Po _ _) (hH.Pi _ _)]
      rfl

end Log

end Verif
