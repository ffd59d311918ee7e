import Verif.Proof.HJBBlock
import Verif.Proof.LQTTF
import Mathlib.Tactic.NormNum
import Mathlib.Tactic.FinCases
import Mathlib.Data.Fin.VecNotation
import Mathlib.Data.Fintype.Basic
import Mathlib.Data.Rat.Cast.Order

/-! Property C42: the interpolated combination of grid value functions. -/

namespace Verif

variable {n : ℕ} {K : Type} [Field K] [LinearOrder K]

/-- A matrix without `nan`. -/
def fin2 {n : ℕ} {K : Type} (A : Fin n → Fin n → K) : Fin n → Fin n → WithBot K := fun i j => (A i j : WithBot K)

/-- C42 (bounds): on finite matrices the interpolated combination is either `nan` or between the plain minimum `f j` and
that minimum minus an eighth of the second difference at the first minimiser `j`.  The neighbours of a boundary point are
both the only neighbour inside the grid. -/
theorem C42_bounds [IsStrictOrderedRing K] [NeZero n] (hn : 2 ≤ n) (A B : Fin n → Fin n → K) (i k j jm jp : Fin n)
    (hj : ∀ l, A i j + B j k ≤ A i l + B l k) (hj' : ∀ l < j, A i j + B j k < A i l + B l k)
    (hjm : (jm : ℕ) = if (j : ℕ) = 0 then (1 : ℕ) else (j : ℕ) - 1)
    (hjp : (jp : ℕ) = if (j : ℕ) = n - 1 then n - 2 else (j : ℕ) + 1) :
    hjbCombineV (fin2 A) (fin2 B) i k = ((A i j + B j k : K) : WithBot K) ∧
    ∀ v : K, combineVInterp (fin2 A) (fin2 B) i k = v →
      A i j + B j k - ((A i jp + B jp k) + (A i jm + B jm k) - 2 * (A i j + B j k)) / 8 ≤ v ∧ v ≤ A i j + B j k := by
  have e : argmin1 (fun j => A i j + B j k) = j := argmin1_unique hj hj'
  constructor
  · show min1 (fun j => ((A i j + B j k : K) : WithBot K)) = _
    rw [min1_coe, ← argmin1_val, e]
  · intro v hv
    unfold fin2 at hv
    rw [combineVInterp_coe hn, e] at hv
    have h1 : nbrL hn j = jm := Fin.ext hjm.symm
    have h2 : nbrR hn j = jp := Fin.ext hjp.symm
    have h := interpAt_bounds hn (fun j => A i j + B j k) j hj v hv
    rw [h1, h2] at h
    exact h

/-- C42 (nan): an entry of the interpolated combination is `nan` exactly if one of the sums is `nan` or the two sums at
the left end of the grid are equal and the smallest of all. -/
theorem C42_nan [IsStrictOrderedRing K] (A B : Fin (n + 2) → Fin (n + 2) → WithBot K) (i k : Fin (n + 2)) :
    combineVInterp A B i k = ⊥ ↔ (∃ j, A i j = ⊥ ∨ B j k = ⊥) ∨
      (A i 0 + B 0 k = A i 1 + B 1 k ∧ ∀ j, A i 0 + B 0 k ≤ A i j + B j k) :=
  interp_nan_iff A B i k

/-- C42 (nan, one point): with a single grid point every entry is `nan`. -/
theorem C42_nan_one (A B : Fin 1 → Fin 1 → WithBot K) (i k : Fin 1) : combineVInterp A B i k = ⊥ :=
  combineVInterp_one A B i k

/-- C42 (boundary): if the smallest sum is at an end of the grid, a finite entry is the plain minimum. -/
theorem C42_boundary [IsStrictOrderedRing K] [NeZero n] (hn : 2 ≤ n) (A B : Fin n → Fin n → K) (i k j : Fin n)
    (hj : ∀ l, A i j + B j k ≤ A i l + B l k) (hj' : ∀ l < j, A i j + B j k < A i l + B l k)
    (hb : (j : ℕ) = 0 ∨ (j : ℕ) = n - 1) (h : combineVInterp (fin2 A) (fin2 B) i k ≠ ⊥) :
    combineVInterp (fin2 A) (fin2 B) i k = hjbCombineV (fin2 A) (fin2 B) i k := by
  have e : argmin1 (fun j => A i j + B j k) = j := argmin1_unique hj hj'
  have e2 : hjbCombineV (fin2 A) (fin2 B) i k = ((A i j + B j k : K) : WithBot K) := by
    show min1 (fun j => ((A i j + B j k : K) : WithBot K)) = _
    rw [min1_coe, ← argmin1_val, e]
  have hs : nbrR hn j = nbrL hn j := hb.elim (nbr_zero hn j) (nbr_last hn j)
  rw [e2]
  unfold fin2 at h ⊢
  rw [combineVInterp_coe hn, e] at h ⊢
  by_cases h3 : (fun j => A i j + B j k) (nbrL hn j) = (fun j => A i j + B j k) j
  · exact absurd ((interpAt_nan hn (fun j => A i j + B j k) j hj).2 ⟨h3, by rw [hs]; exact h3⟩) h
  · exact interpAt_same hn (fun j => A i j + B j k) j hs h3

/-- C42 (parabola): if the sums are the values of a convex parabola whose vertex lies between the points `1/2` and
`n - 3/2` of the grid, the entry is the exact minimum `e` of the parabola. -/
theorem C42_parabola [IsStrictOrderedRing K] [NeZero n] (hn : 2 ≤ n) (A B : Fin n → Fin n → K) (i k : Fin n) (a c e : K)
    (ha : 0 < a) (hc1 : 1 / 2 < c) (hc2 : c ≤ n - 3 / 2)
    (h : ∀ j : Fin n, A i j + B j k = a * (((j : ℕ) : K) - c) ^ 2 + e) :
    combineVInterp (fin2 A) (fin2 B) i k = (e : WithBot K) := by
  have hn3 : 3 ≤ n := by
    by_contra h3
    have h4 : (n : K) ≤ 2 := by exact_mod_cast (by omega : n ≤ 2)
    linarith
  unfold fin2
  rw [combineVInterp_coe hn]
  have hf : (fun j => A i j + B j k) = fun j : Fin n => a * (((j : ℕ) : K) - c) ^ 2 + e := funext h
  rw [hf]
  have hle := argmin1_le fun j : Fin n => a * (((j : ℕ) : K) - c) ^ 2 + e
  have hlt := argmin1_first fun j : Fin n => a * (((j : ℕ) : K) - c) ^ 2 + e
  generalize argmin1 (fun j : Fin n => a * (((j : ℕ) : K) - c) ^ 2 + e) = j at *
  refine interpAt_parabola hn a c e ha j ?_ ?_
  · intro h0
    have h1 := hle ⟨1, by omega⟩
    dsimp only at h1
    rw [h0] at h1
    push_cast at h1
    nlinarith
  · intro h0
    have h1 := hlt ⟨n - 2, by omega⟩ (by rw [Fin.lt_def]; show n - 2 < (j : ℕ); omega)
    dsimp only at h1
    rw [h0, Nat.cast_sub (by omega), Nat.cast_sub (by omega)] at h1
    push_cast at h1
    nlinarith

/-- C42 (loop versions): `combine_V_interp2` and `combine_V2` are the vectorised functions. -/
theorem C42_loops [NeZero n] (A B : Fin n → Fin n → WithBot K) :
    combineVInterp2 A B = combineVInterp A B ∧ hjbCombineV2 A B = hjbCombineV A B :=
  ⟨combineVInterp2_eq A B, hjbCombineV2_eq A B⟩

/-- C42 (TensorFlow): with ties resolved to the first index the TensorFlow functions are the numpy ones; the plain
`combine_V2` does not depend on the choice. -/
theorem C42_tf [NeZero n] (am : (Fin n → WithBot K) → Fin n) (ham : IsArgmin am) (A B : Fin n → Fin n → WithBot K) :
    combineVInterpTF argmin1 A B = combineVInterp A B ∧ combineVInterpRevTF argmin1 B A = combineVInterp A B ∧
      hjbCombineV2TF am A B = hjbCombineV A B ∧ hjbCombineVRevTF B A = hjbCombineV A B := by
  refine ⟨rfl, rfl, ?_, rfl⟩
  funext i k
  exact (min1_eq (fun j => ham (vsum A B i k) j) ⟨_, rfl⟩).symm

/-- C42 (passes): the sequential block pass is the iterated combination; the parallel pass always succeeds, its values
come from some bracketing of the same blocks, and no information is lost by keeping only the first column. -/
theorem C42_passes [NeZero n] (M : HJB n K) (B : Fin n → Fin n → WithBot K) :
    (M.seqBackwardPassAssoc B = (List.range (M.blocks + 1)).map fun k x => (combineVInterp B)^[M.blocks - k] M.VT x 0) ∧
    ∃ r, M.parBackwardPass B = .ok r ∧ r.length = M.blocks + 1 ∧
      ∀ k ≤ M.blocks, ∃ W, Paren (fun x y => .ok (combineVInterp x y)) (List.replicate (M.blocks - k) B ++ [M.VT]) W ∧
        (∀ x l, W x l = W x 0) ∧ r[k]? = some fun x => W x 0 :=
  ⟨seqAssoc_eq M B, parBackward_paren M B⟩

/-- C42 (TensorFlow passes): with the first smallest entry chosen by `argmin`, the TensorFlow sequential block pass returns
the numpy result, and the parallel one returns at each block boundary some bracketing of the same combinations. -/
theorem C42_tf_passes [NeZero n] (M : HJB n K) (B : Fin n → Fin n → WithBot K)
    {scan : ((Fin n → Fin n → WithBot K) → (Fin n → Fin n → WithBot K) → Py (Fin n → Fin n → WithBot K)) →
      List (Fin n → Fin n → WithBot K) → Py (List (Fin n → Fin n → WithBot K))} (hs : IsAssocScan scan) :
    seqBwPassAssocTF argmin1 M B = M.seqBackwardPassAssoc B ∧
    ∃ r, parBwPassTF scan argmin1 M B = .ok r ∧ r.length = M.blocks + 1 ∧
      ∀ k ≤ M.blocks, ∃ W, Paren (fun x y => .ok (combineVInterp x y)) (List.replicate (M.blocks - k) B ++ [M.VT]) W ∧
        r[k]? = some fun x => W x 0 := by
  constructor
  · rw [seqAssoc_eq]
    unfold seqBwPassAssocTF
    dsimp only
    rw [tfRangeScanRev_eq, List.range_succ, List.map_append, List.map_map]
    have e : (fun V : Fin n → Fin n → WithBot K => combineVInterpTF argmin1 B V) = combineVInterp B := by
      funext V; rfl
    simp only [List.map_cons, List.map_nil, Nat.sub_self, Function.iterate_zero, id]
    rfl
  · have hne : (List.replicate M.blocks B ++ [M.VT]).reverse ≠ [] := by simp
    obtain ⟨s, h⟩ := hs.total (op := fun x y => (.ok (combineVInterpRevTF argmin1 x y) : Py (Fin n → Fin n → WithBot K)))
      (fun _ => True) (fun x y _ _ => ⟨_, rfl, trivial⟩) hne (fun _ _ => trivial)
    obtain ⟨hl, hk⟩ := tfScan_suffix hs (op := fun x y => (.ok (combineVInterp x y) : Py (Fin n → Fin n → WithBot K))) h
    refine ⟨s.reverse.map fun V x => V x 0, ?_, by rw [List.length_map, hl]; simp, ?_⟩
    · unfold parBwPassTF
      exact bind_ok.2 ⟨s, h, rfl⟩
    · intro k hkb
      obtain ⟨W, hW, hp⟩ := hk k (by simp; omega)
      rw [replicate_drop _ _ hkb] at hp
      exact ⟨W, hp, by rw [List.getElem?_map, hW]; rfl⟩

/-- C42 (one block): with at most one block the parallel and sequential block passes agree. -/
theorem C42_one_block [NeZero n] (M : HJB n K) (B : Fin n → Fin n → WithBot K) (h : M.blocks ≤ 1) :
    M.parBackwardPass B = .ok (M.seqBackwardPassAssoc B) := by
  obtain ⟨r, hr, hl, hk⟩ := parBackward_paren M B
  rw [hr, seqAssoc_eq]
  congr 1
  apply list_ext_of hl (by simp)
  intro k hk'
  obtain ⟨W, hW, -, hrk⟩ := hk k (by omega)
  rw [hrk]
  have hcase : M.blocks - k = 0 ∨ M.blocks - k = 1 := by omega
  have e : W = (combineVInterp B)^[M.blocks - k] M.VT := by
    rcases hcase with h0 | h0
    · rw [h0] at hW ⊢
      exact paren_one hW rfl
    · rw [h0] at hW ⊢
      exact (Except.ok.inj (paren_two hW rfl)).symm
  subst e
  simp [hk']

/-- C42 (plain): without interpolation the parallel pass equals the sequential one, and its values are the smallest costs
of paths on the grid. -/
theorem C42_plain [IsStrictOrderedRing K] [NeZero n] (M : HJB n K) (B : Fin n → Fin n → K) :
    M.parBackwardPassPlain (fin2 B) = .ok (M.seqBackwardPassAssocPlain (fin2 B)) ∧
    (M.seqBackwardPassAssocPlain (fin2 B)).length = M.blocks + 1 ∧
    ∀ k ≤ M.blocks, ∀ x, ∃ c : K,
      ((M.seqBackwardPassAssocPlain (fin2 B))[k]?.map fun V => V x) = some (c : WithBot K) ∧
      IsLeast {c | ∃ p : List (Fin n), p.length = M.blocks - k ∧ pathCost B (fun i => M.LT (M.grid i)) x p = c} c := by
  refine ⟨parPlain_eq M (fin2 B), by rw [seqAssocPlain_eq]; simp, fun k hk x => ?_⟩
  obtain ⟨c, h1, h2⟩ := plain_paths B (fun i => M.LT (M.grid i)) (M.blocks - k) x 0
  refine ⟨c, ?_, h2⟩
  rw [seqAssocPlain_eq]
  have hk' : k < M.blocks + 1 := by omega
  simp only [List.getElem?_map, List.getElem?_range hk', Option.map_some]
  congr 1

/-- C42 (undershoot): with a large value `S` standing for infinity next to the minimiser, nonnegative costs whose plain
combination is `0` get an interpolated value below `-(S-3)/8`. -/
theorem C42_undershoot [IsStrictOrderedRing K] (S : K) (hS : 3 < S) :
    ∃ A B : Fin 3 → Fin 3 → K, (∀ i j, 0 ≤ A i j ∧ A i j ≤ S) ∧ (∀ i j, 0 ≤ B i j ∧ B i j ≤ S) ∧
      hjbCombineV (fin2 A) (fin2 B) 0 0 = ((0 : K) : WithBot K) ∧
      ∃ v : K, combineVInterp (fin2 A) (fin2 B) 0 0 = v ∧ v < -(S - 3) / 8 := by
  refine ⟨fun _ j => (![1, 0, S] : Fin 3 → K) j, fun _ _ => 0, ?_, ?_, ?_, ?_⟩
  · intro i j
    fin_cases j <;> constructor <;> simp <;> linarith
  · intro i j; constructor <;> simp; linarith
  · show min1 (fun j : Fin 3 => (((![1, 0, S] : Fin 3 → K) j + 0 : K) : WithBot K)) = _
    rw [min1_coe]
    congr 1
    apply min1_eq
    · intro j; fin_cases j <;> simp; linarith
    · exact ⟨1, by simp⟩
  · have e : argmin1 (fun j : Fin 3 => ((![1, 0, S] : Fin 3 → K) j + 0 : K)) = 1 := by
      apply argmin1_unique
      · intro j; fin_cases j <;> simp; linarith
      · intro j hj; fin_cases j <;> simp at hj ⊢
    unfold fin2
    rw [combineVInterp_coe (by norm_num), e]
    unfold interpAt
    have hl : nbrL (n := 3) (by norm_num) 1 = 0 := by decide
    have hr : nbrR (n := 3) (by norm_num) 1 = 2 := by decide
    rw [hl, hr]
    show ∃ v : K, interpVertex ((1 + 0 : K) : WithBot K) ((0 + 0 : K) : WithBot K) ((S + 0 : K) : WithBot K) = v ∧ _
    simp only [add_zero]
    rw [interpVertex_coe, if_neg (by intro h; linarith)]
    refine ⟨_, rfl, ?_⟩
    have hp : 0 < S + 1 - 2 * 0 := by linarith
    have : S - 3 < (S - 1) ^ 2 / (S + 1 - 2 * 0) := by
      rw [lt_div_iff₀ hp]; nlinarith
    linarith

/-- Block matrix of the witnesses. -/
def hjbB : Fin 3 → Fin 3 → ℚ := ![![3, 2, 1], ![0, 2, 0], ![3, 0, 0]]

/-- A solver object with four blocks on the grid `-1, 0, 1` and terminal costs `1, 2, 0`. -/
def hjbM : HJB 3 ℚ := ⟨fun _ u => u, fun _ _ => 0, fun x => 2 - x / 2 - 3 / 2 * x ^ 2, 1, 4, 1, ![-1, 0, 1]⟩

/-- C42 (not associative): two ways of combining the same three finite matrices give different finite values. -/
theorem C42_not_assoc : ∃ A : Fin 3 → Fin 3 → ℚ, ∃ a b : ℚ, a ≠ b ∧
    combineVInterp (combineVInterp (fin2 A) (fin2 A)) (fin2 A) 2 2 = (a : WithBot ℚ) ∧
    combineVInterp (fin2 A) (combineVInterp (fin2 A) (fin2 A)) 2 2 = (b : WithBot ℚ) := by
  refine ⟨![![1, 0, 3], ![3, 2, 0], ![3, 3, 1]], 5 / 2, 3, by norm_num, ?_, ?_⟩ <;> decide +kernel

/-- C42 (parallel and sequential passes differ): with four blocks and finite nonnegative costs the parallel block pass
returns another finite value than the sequential one. -/
theorem C42_par_ne_seq : ∃ (M : HJB 3 ℚ) (B : Fin 3 → Fin 3 → ℚ) (r : List (Fin 3 → WithBot ℚ)) (a b : ℚ), a ≠ b ∧
    M.parBackwardPass (fin2 B) = .ok r ∧ (r[0]?.map fun V => V 2) = some (a : WithBot ℚ) ∧
    ((M.seqBackwardPassAssoc (fin2 B))[0]?.map fun V => V 2) = some (b : WithBot ℚ) := by
  have h : (match hjbM.parBackwardPass (fin2 hjbB) with
    | .ok r => decide ((r[0]?.map fun V => V 2) = some ((-1 / 2 : ℚ) : WithBot ℚ))
    | .error _ => false) = true := by decide +kernel
  cases hr : hjbM.parBackwardPass (fin2 hjbB) with
  | error e => rw [hr] at h; simp at h
  | ok r =>
    rw [hr] at h
    exact ⟨hjbM, hjbB, r, -1 / 2, -1, by norm_num, hr, of_decide_eq_true h, by decide +kernel⟩

/-- C42 (not monotone): raising one cost can lower the interpolated value. -/
theorem C42_not_monotone : ∃ (A A' B : Fin 3 → Fin 3 → ℚ) (a a' : ℚ), (∀ i j, A i j ≤ A' i j) ∧
    combineVInterp (fin2 A) (fin2 B) 0 0 = (a : WithBot ℚ) ∧ combineVInterp (fin2 A') (fin2 B) 0 0 = (a' : WithBot ℚ) ∧
    a' < a := by
  refine ⟨fun _ => ![1, 0, 1], fun _ => ![1, 0, 3], fun _ _ => 0, 0, -1 / 8, ?_, ?_, ?_, by norm_num⟩ <;> decide +kernel

/-! Examples meeting the hypotheses. -/

/-- `C42_bounds`, `C42_parabola`: the sums `(j - 5/4)^2 + 7` on four points have their minimum `7` at `5/4`; the plain
combination gives `7 + 1/16`. -/
example : combineVInterp (fin2 fun _ j : Fin 4 => ((((j : ℕ) : ℚ) - 5 / 4) ^ 2)) (fin2 fun _ _ => 7) 0 0 = ((7 : ℚ) : WithBot ℚ) ∧
    hjbCombineV (fin2 fun _ j : Fin 4 => ((((j : ℕ) : ℚ) - 5 / 4) ^ 2)) (fin2 fun _ _ => 7) 0 0 = ((7 + 1 / 16 : ℚ) : WithBot ℚ) := by
  decide +kernel

/-- `C42_nan`: constant costs give `nan`. -/
example : combineVInterp (fin2 fun _ _ : Fin 4 => (1 : ℚ)) (fin2 fun _ _ => 7) 0 0 = ⊥ := by decide +kernel

/-- `C42_boundary`: the smallest sum at the left end. -/
example : combineVInterp (fin2 fun _ j : Fin 4 => ((j : ℕ) : ℚ)) (fin2 fun _ _ => 7) 0 0 = ((7 : ℚ) : WithBot ℚ) := by
  decide +kernel

/-- `C42_plain`, `C42_passes`: a solver object with four blocks. -/
example : hjbM.blocks = 4 ∧ (hjbM.seqBackwardPassAssocPlain (fin2 hjbB)).map (fun V => V 0) =
    [((1 : ℚ) : WithBot ℚ), ((1 : ℚ) : WithBot ℚ), ((1 : ℚ) : WithBot ℚ), ((1 : ℚ) : WithBot ℚ),
      ((1 : ℚ) : WithBot ℚ)] := by decide +kernel

/-- `C42_undershoot` with the value `1e20` of `_HJB_GRID_NP_INFTY`. -/
example : (3 : ℚ) < 10 ^ 20 := by norm_num

end Verif
