import Verif.Proof.ScanErr

/-!
# C01–C04: the simulated parallel scan `my_assoc_scan`
-/

namespace Verif

universe u
variable {α : Type u}

/-- Concrete non-commutative, non-associative operation used in the examples (`x - y` on integers). -/
def subOp (x y : ℤ) : Py ℤ := .ok (x - y)

/-- Concrete non-commutative associative operation used in the examples (concatenation). -/
def catOp (x y : List ℕ) : Py (List ℕ) := .ok (x ++ y)

/-- An operation that fails on some arguments (`x / y` on rationals as a partial function on ℤ). -/
def divOp (x y : ℤ) : Py ℤ := if y = 0 then .error .zeroDivisionError else .ok (x / y)

/-! ## C01 -/

/-- **C01** (any operation): a successful forward scan returns `len(a)` items, the `k`-th an in-order
parenthesisation of `a[0], …, a[k]`. -/
theorem C01_scan_prefix_paren (op : α → α → Py α) (a : List α) (s : List (Option α))
    (h : myAssocScan op (a.map some) = .ok s) :
    s.length = a.length ∧ ∀ k < a.length, ∃ v, s[k]? = some (some v) ∧ Paren op (a.take (k + 1)) v := by
  obtain ⟨r, hr, rfl⟩ := scanVals_eq h
  have := scanVals_prefix hr
  refine ⟨by simpa using this.1, fun k hk => ?_⟩
  obtain ⟨v, hv, hp⟩ := this.2 k hk
  exact ⟨v, by simp [hv], hp⟩

example : myAssocScan subOp ([7, 2, 5, 1, 9].map some) = .ok ([7, 5, 0, -1, -8].map some) := by decide

/-- **C01** (associative operation): if `op` is total, closed and associative on a set `P` of values
containing all items, the scan succeeds and its `k`-th item is the left fold of `a[0..k]`. -/
theorem C01_scan_prefix_foldl (P : α → Prop) (op : α → α → Py α) (g : α → α → α)
    (hop : ∀ x y, P x → P y → op x y = .ok (g x y)) (hcl : ∀ x y, P x → P y → P (g x y))
    (hassoc : ∀ x y z, P x → P y → P z → g (g x y) z = g x (g y z))
    (a : List α) (hne : a ≠ []) (ha : ∀ x ∈ a, P x) :
    ∃ r : List α, myAssocScan op (a.map some) = .ok (r.map some) ∧ r.length = a.length ∧
      ∀ k < a.length, r[k]? = foldl1 g (a.take (k + 1)) := by
  obtain ⟨r, hr⟩ := scanVals_total (P := P) (fun x y hx hy => ⟨_, hop x y hx hy, hcl x y hx hy⟩) hne ha false
  have := scanVals_prefix hr
  refine ⟨r, scanVals_ok.1 hr, this.1, fun k hk => ?_⟩
  obtain ⟨v, hv, hp⟩ := this.2 k hk
  rw [hv, paren_foldl1 hop hcl hassoc hp (fun x hx => ha x (List.mem_of_mem_take hx))]

example : ∃ r : List (List ℕ), myAssocScan catOp ([[1], [2, 3], [4]].map some) = .ok (r.map some) ∧
    r.length = 3 ∧ ∀ k < 3, r[k]? = foldl1 (· ++ ·) ([[1], [2, 3], [4]].take (k + 1)) :=
  C01_scan_prefix_foldl (fun _ => True) catOp (· ++ ·) (fun _ _ _ _ => rfl) (fun _ _ _ _ => trivial)
    (fun _ _ _ _ _ _ => List.append_assoc _ _ _) [[1], [2, 3], [4]] (by simp) (fun _ _ => trivial)

/-! ## C02 -/

/-- **C02** (any operation): the `k`-th item of a successful reverse scan is an in-order
parenthesisation of `a[k], …, a[n-1]` (operands not swapped). -/
theorem C02_scan_suffix_paren (op : α → α → Py α) (a : List α) (s : List (Option α))
    (h : myAssocScan op (a.map some) true = .ok s) :
    s.length = a.length ∧ ∀ k < a.length, ∃ v, s[k]? = some (some v) ∧ Paren op (a.drop k) v := by
  obtain ⟨r, hr, rfl⟩ := scanVals_eq h
  have := scanVals_suffix hr
  refine ⟨by simpa using this.1, fun k hk => ?_⟩
  obtain ⟨v, hv, hp⟩ := this.2 k hk
  exact ⟨v, by simp [hv], hp⟩

example : myAssocScan subOp ([7, 2, 5].map some) true = .ok ([10, -3, 5].map some) := by decide

/-- **C02** (associative operation): the reverse scan succeeds and its `k`-th item is the right fold
`a[k] op (a[k+1] op (… op a[n-1]))`. -/
theorem C02_scan_suffix_foldr (P : α → Prop) (op : α → α → Py α) (g : α → α → α)
    (hop : ∀ x y, P x → P y → op x y = .ok (g x y)) (hcl : ∀ x y, P x → P y → P (g x y))
    (hassoc : ∀ x y z, P x → P y → P z → g (g x y) z = g x (g y z))
    (a : List α) (hne : a ≠ []) (ha : ∀ x ∈ a, P x) :
    ∃ r : List α, myAssocScan op (a.map some) true = .ok (r.map some) ∧ r.length = a.length ∧
      ∀ k < a.length, r[k]? = foldr1 g (a.drop k) := by
  obtain ⟨r, hr⟩ := scanVals_total (P := P) (fun x y hx hy => ⟨_, hop x y hx hy, hcl x y hx hy⟩) hne ha true
  have := scanVals_suffix hr
  refine ⟨r, scanVals_ok.1 hr, this.1, fun k hk => ?_⟩
  obtain ⟨v, hv, hp⟩ := this.2 k hk
  have hd : ∀ x ∈ a.drop k, P x := fun x hx => ha x (List.mem_of_mem_drop hx)
  rw [hv, foldr1_eq_foldl1 hcl hassoc hd, paren_foldl1 hop hcl hassoc hp hd]

example : ∃ r : List (List ℕ), myAssocScan catOp ([[1], [2, 3], [4]].map some) true = .ok (r.map some) ∧
    r.length = 3 ∧ ∀ k < 3, r[k]? = foldr1 (· ++ ·) ([[1], [2, 3], [4]].drop k) :=
  C02_scan_suffix_foldr (fun _ => True) catOp (· ++ ·) (fun _ _ _ _ => rfl) (fun _ _ _ _ => trivial)
    (fun _ _ _ _ _ _ => List.append_assoc _ _ _) [[1], [2, 3], [4]] (by simp) (fun _ _ => trivial)

/-! ## C03 -/

/-- **C03**: if the iterations of every inner "parallel loop" are executed in any other order (a
permutation chosen per pass and level), the scan returns a list exactly when the sequential code does,
and the same list, for any operation whatsoever. -/
theorem C03_scan_schedule_independent (ord : ScanPass → ℕ → List ℕ → List ℕ)
    (hord : ∀ p d l, (ord p d l).Perm l) (op : α → α → Py α) (a r : List (Option α)) :
    myAssocScanOrd ord op a = .ok r ↔ myAssocScan op a = .ok r := by
  rw [scanOrd_perm (ord₂ := fun _ _ l => l) hord validOrd_id op a r]
  simp [myAssocScan]

/-- Reversing all inner loops is a permitted schedule, and it really changes the order of evaluation. -/
example : (∀ (_ : ScanPass) (_ : ℕ) (l : List ℕ), (l.reverse).Perm l) ∧
    myAssocScanOrd (fun _ _ l => l.reverse) subOp ([7, 2, 5, 1, 9].map some)
      = .ok ([7, 5, 0, -1, -8].map some) :=
  ⟨fun _ _ l => List.reverse_perm l, by decide⟩

/-! ## C04 -/

/-- **C04**: the empty list raises `ValueError` (from `math.log2(0)`), in both directions. -/
theorem C04_scan_empty (op : α → α → Py α) (rev : Bool) :
    myAssocScan op [] rev = .error .valueError := by
  cases rev <;> rfl

/-- **C04**: `None` entries behave as identity elements (forward): item `k` combines exactly the
non-`None` entries among the first `k+1`, and is `None` iff there are none; the length is kept. -/
theorem C04_scan_none_identity (op : α → α → Py α) (a r : List (Option α)) (h : myAssocScan op a = .ok r) :
    r.length = a.length ∧ ∀ k < a.length, ∃ v, r[k]? = some v ∧ Seg op (a.take (k + 1)) v :=
  scan_prefix h

/-- **C04**: the same for the reverse scan. -/
theorem C04_scan_none_identity_reverse (op : α → α → Py α) (a r : List (Option α))
    (h : myAssocScan op a true = .ok r) :
    r.length = a.length ∧ ∀ k < a.length, ∃ v, r[k]? = some v ∧ Seg op (a.drop k) v :=
  scan_suffix h

example : myAssocScan subOp [none, some 3, none, some 1, some 7] =
    .ok [none, some 3, some 3, some 2, some (-5)] := by decide
example : myAssocScan subOp [none, some 3, none, some 1, none] true =
    .ok [some 2, some 2, some 1, some 1, none] := by decide

/-- **C04**: a scan whose operation never fails on a set of values closed under it and containing the
entries never fails. -/
theorem C04_scan_total (P : α → Prop) (op : α → α → Py α)
    (hop : ∀ x y, P x → P y → ∃ z, op x y = .ok z ∧ P z) (a : List (Option α)) (hne : a ≠ [])
    (ha : ∀ x, some x ∈ a → P x) (rev : Bool) : ∃ r, myAssocScan op a rev = .ok r :=
  scan_total hop hne ha rev

example : ∀ x y : ℤ, 0 < x → 0 < y → ∃ z, (if x + y = 0 then .error .zeroDivisionError else .ok (x + y) : Py ℤ)
    = .ok z ∧ 0 < z := by
  intro x y hx hy
  exact ⟨x + y, by simp; omega, by omega⟩

/-- **C04**: no other exception: whatever a scan of a non-empty list raises was raised by `op` itself
(in particular no `IndexError` from the index arithmetic). -/
theorem C04_scan_only_op_errors (op : α → α → Py α) (a : List (Option α)) (hne : a ≠ []) (rev : Bool)
    (e : PyErr) (h : myAssocScan op a rev = .error e) : ∃ x y, op x y = .error e :=
  scan_err hne h

example : myAssocScan divOp ([4, 0, 2].map some) = .error .zeroDivisionError := by decide

end Verif
