import Verif.Model.Tensor

/-!
What it means that a tensor holds given data; used in the statements about tensor code.
-/

namespace Verif

variable {K : Type} {n m p : ℕ}

/-- The tensor has one axis and holds the entries of a list. -/
def Tens.Is1 (t : Tens K) (l : List K) : Prop :=
  t.shape = [l.length] ∧ ∀ (k : ℕ) (h : k < l.length), t.val [k] = l[k]

/-- The tensor is a vector. -/
def Tens.IsV (t : Tens K) (v : Fin n → K) : Prop :=
  t.shape = [n] ∧ ∀ x : Fin n, t.val [x] = v x

/-- The tensor is a matrix. -/
def Tens.IsM (t : Tens K) (A : Fin n → Fin m → K) : Prop :=
  t.shape = [n, m] ∧ ∀ (x : Fin n) (y : Fin m), t.val [x, y] = A x y

/-- The tensor is a batch of vectors. -/
def Tens.IsVs (t : Tens K) (l : List (Fin n → K)) : Prop :=
  t.shape = [l.length, n] ∧ ∀ (k : ℕ) (h : k < l.length) (x : Fin n), t.val [k, x] = l[k] x

/-- The tensor is a batch of matrices. -/
def Tens.IsMs (t : Tens K) (l : List (Fin n → Fin m → K)) : Prop :=
  t.shape = [l.length, n, m] ∧ ∀ (k : ℕ) (h : k < l.length) (x : Fin n) (y : Fin m), t.val [k, x, y] = l[k] x y

/-- The tensor with the entries of a list. -/
def tens1 [Inhabited K] (l : List K) : Tens K := ⟨[l.length], fun i => l.getD (i.getD 0 0) default⟩

/-- The tensor of a vector. -/
def tensV [Inhabited K] (v : Fin n → K) : Tens K :=
  ⟨[n], fun i => if h : i.getD 0 0 < n then v ⟨_, h⟩ else default⟩

/-- The tensor of a batch of vectors. -/
def tensVs [Inhabited K] (l : List (Fin n → K)) : Tens K :=
  ⟨[l.length, n], fun i => if h : i.getD 0 0 < l.length ∧ i.getD 1 0 < n then l[i.getD 0 0] ⟨_, h.2⟩ else default⟩

/-- The tensor of a batch of matrices. -/
def tensMs [Inhabited K] (l : List (Fin n → Fin m → K)) : Tens K :=
  ⟨[l.length, n, m], fun i =>
    if h : i.getD 0 0 < l.length ∧ i.getD 1 0 < n ∧ i.getD 2 0 < m then l[i.getD 0 0] ⟨_, h.2.1⟩ ⟨_, h.2.2⟩ else default⟩

theorem tens1_is [Inhabited K] (l : List K) : (tens1 l).Is1 l := by
  refine ⟨rfl, fun k h => ?_⟩
  simp [tens1, List.getElem?_eq_getElem h]

theorem tensV_is [Inhabited K] (v : Fin n → K) : (tensV v).IsV v := by
  refine ⟨rfl, fun x => ?_⟩
  simp [tensV]

theorem tensVs_is [Inhabited K] (l : List (Fin n → K)) : (tensVs l).IsVs l := by
  refine ⟨rfl, fun k h x => ?_⟩
  simp [tensVs, h]
  rfl

theorem tensMs_is [Inhabited K] (l : List (Fin n → Fin m → K)) : (tensMs l).IsMs l := by
  refine ⟨rfl, fun k h x y => ?_⟩
  simp [tensMs, h]
  rfl

end Verif
