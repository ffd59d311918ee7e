import Verif.Proof.CLQTPar
import Verif.Proof.CLQTPackTF
import Verif.Proof.CLQTEx

/-! Properties C35, C36, C40 and C41: the continuous-time passes. -/

namespace Verif

open Matrix

/-! ### C35 -/

section C35
variable {n m : ℕ} {K : Type} [Field K] [LinearOrder K] [CharZero K]

/-- C35: on `blocks * steps` gains the parallel forward pass is the sequential one (result or exception), for both ways
of computing the block elements. -/
theorem C35_eq (P : CLQT n m K) (x0 : Fin n → K) (Kx_list : List (Matrix (Fin m) (Fin n) K)) (d_list : List (Fin m → K))
    (blocks steps : ℕ) (dt t0 : Option K) (forward : Bool) (hK : Kx_list.length = blocks * steps)
    (hd : d_list.length = blocks * steps) :
    P.parForwardPass x0 Kx_list d_list blocks steps dt t0 forward false =
      P.seqForwardPass x0 Kx_list d_list dt t0 false := by
  obtain ⟨κ, rfl, rfl⟩ := exists_gains hK hd
  exact P.parForward_eq x0 κ blocks steps dt t0 forward

omit [CharZero K] in
/-- C35 (errors): with a wrong number of gains the parallel pass raises `ValueError`. -/
theorem C35_errors (P : CLQT n m K) (x0 : Fin n → K) (Kx_list : List (Matrix (Fin m) (Fin n) K)) (d_list : List (Fin m → K))
    (blocks steps : ℕ) (dt : K) (t0 : Option K) (forward u_zoh : Bool) (hK : Kx_list.length ≠ blocks * steps) :
    P.parForwardPass x0 Kx_list d_list blocks steps (some dt) t0 forward u_zoh = .error .valueError := by
  unfold CLQT.parForwardPass CLQT.parForwardInit
  simp only [P.dtPar_some, bind, Except.bind, if_pos (Ne.symm hK)]
  rfl

/-- C35 (completion): with a given time step the pass completes, with one control per gain and one state more; the default
time step raises `ZeroDivisionError` exactly when there is no gain. -/
theorem C35_completes (P : CLQT n m K) (x0 : Fin n → K) (Kx_list : List (Matrix (Fin m) (Fin n) K))
    (d_list : List (Fin m → K)) (blocks steps : ℕ) (t0 : Option K) (forward : Bool)
    (hK : Kx_list.length = blocks * steps) (hd : d_list.length = blocks * steps) :
    (∀ dt : Option K, dt ≠ none ∨ blocks * steps ≠ 0 → ∃ u x, P.parForwardPass x0 Kx_list d_list blocks steps dt t0 forward false = .ok (u, x) ∧
      u.length = blocks * steps ∧ x.length = blocks * steps + 1 ∧ x[0]? = some x0) ∧
    (blocks * steps = 0 →
      P.parForwardPass x0 Kx_list d_list blocks steps none t0 forward false = .error .zeroDivisionError) := by
  obtain ⟨κ, rfl, rfl⟩ := exists_gains hK hd
  constructor
  · intro odt ho
    have hdt : ∃ dt, P.dtSeq (blocks * steps) odt = .ok dt := by
      cases odt with
      | some dt => exact ⟨dt, P.dtSeq_some _ _⟩
      | none =>
        have h0 : ((blocks * steps : ℕ) : K) ≠ 0 := Nat.cast_ne_zero.2 (ho.resolve_left (fun h => h rfl))
        exact ⟨_, pyDiv_ok.2 ⟨h0, rfl⟩⟩
    obtain ⟨dt, hdt⟩ := hdt
    obtain ⟨ξ, h0, hξ⟩ := P.fwSeq_total false (blocks * steps) dt (t0.getD 0) κ x0
    refine ⟨_, _, (P.parForward_eq x0 κ blocks steps odt t0 forward).trans
      (CLQT.seqForward_ok.2 ⟨dt, hdt, ξ, h0, hξ, rfl⟩), by simp, by simp, by simp [h0]⟩
  · intro h0
    have hl : (gainLists (blocks * steps) κ).1.length = 0 := by simp [gainLists, h0]
    rw [P.parForward_eq]
    unfold CLQT.seqForwardPass
    simp only [hl, CLQT.dtSeq, pyDiv, Nat.cast_zero, if_true]
    rfl

end C35

/-- Scalar integrator `x' = u` with unit weights and horizon 2. -/
def exInt : CLQT 1 1 ℚ where
  p := 1
  F := fun _ => 0
  L := fun _ => 1
  X := fun _ => 0
  U := fun _ => 1
  c := fun _ => 0
  H := fun _ => 0
  r := fun _ => 0
  pT := 1
  XT := 1
  HT := 1
  rT := 0
  T := 2

/-- C35 (hold): with `u_zoh=True` the parallel pass differs from the sequential one.  On `x' = u`, `u = -x` held over steps of
length 1 the sequential pass gives the states `1, 0, 0`; the parallel pass gives `1, 3/8, 9/64`. -/
theorem C35_zoh :
    exInt.seqForwardPass (fun _ => 1) [1, 1] [0, 0] none none true = .ok ([fun _ => -1, fun _ => 0], [fun _ => 1, fun _ => 0, fun _ => 0]) ∧
    exInt.parForwardPass (fun _ => 1) [1, 1] [0, 0] 2 1 none none true true =
      .ok ([fun _ => -1, fun _ => -3 / 8], [fun _ => 1, fun _ => 3 / 8, fun _ => 9 / 64]) := by
  constructor
  · have h : (match exInt.seqForwardPass (fun _ => 1) [1, 1] [0, 0] none none true with
      | .ok r => decide (r = ([fun _ => -1, fun _ => 0], [fun _ => 1, fun _ => 0, fun _ => 0]))
      | .error _ => false) = true := by decide +kernel
    revert h
    cases exInt.seqForwardPass (fun _ => 1) [1, 1] [0, 0] none none true with
    | error e => simp
    | ok r => intro h; exact congrArg _ (of_decide_eq_true h)
  · have h : (match exInt.parForwardPass (fun _ => 1) [1, 1] [0, 0] 2 1 none none true true with
      | .ok r => decide (r = ([fun _ => -1, fun _ => -3 / 8], [fun _ => 1, fun _ => 3 / 8, fun _ => 9 / 64]))
      | .error _ => false) = true := by decide +kernel
    revert h
    cases exInt.parForwardPass (fun _ => 1) [1, 1] [0, 0] 2 1 none none true true with
    | error e => simp
    | ok r => intro h; exact congrArg _ (of_decide_eq_true h)

example : exCL.parForwardPass ![1, 2] [!![1, 0], !![0, 2], !![1, 1], !![2, 0]] [![1], ![0], ![3], ![-1]] 2 2 none none false =
    exCL.seqForwardPass ![1, 2] [!![1, 0], !![0, 2], !![1, 1], !![2, 0]] [![1], ![0], ![3], ![-1]] :=
  C35_eq exCL _ _ _ 2 2 none none false rfl rfl

example : exCL.parForwardPass ![1, 2] [!![1, 0], !![0, 2], !![1, 1]] [![1], ![0], ![3]] 2 2 (some 1) = .error .valueError :=
  C35_errors exCL _ _ _ 2 2 1 none true false (by decide)

example : ∃ u x, exCL.parForwardPass ![1, 2] [!![1, 0], !![0, 2]] [![1], ![0]] 2 1 none none false = .ok (u, x) ∧ u.length = 2 ∧
    x.length = 3 ∧ x[0]? = some ![1, 2] :=
  (C35_completes exCL ![1, 2] [!![1, 0], !![0, 2]] [![1], ![0]] 2 1 none false rfl rfl).1 none (.inr (by decide))

/-! ### C36 -/

section C36
variable {n : ℕ} {K : Type} [Zero K]

/-- C36: the four packings of the numpy code and their unpackings are inverse to each other. -/
theorem C36_np :
    (∀ e : Elem n K, unpackABCEJ (packABCEJ e) = e) ∧
    (∀ x : Matrix (Fin n) (Fin (3 * n + 2)) K, packABCEJ (unpackABCEJ x) = x) ∧
    (∀ (Psi : Matrix (Fin n) (Fin n) K) (phi : Fin n → K), unpackPsiphi (packPsiphi Psi phi) = (Psi, phi)) ∧
    (∀ x : Matrix (Fin n) (Fin (n + 1)) K, packPsiphi (unpackPsiphi x).1 (unpackPsiphi x).2 = x) ∧
    (∀ (A : Matrix (Fin n) (Fin n) K) (b : Fin n → K) (C : Matrix (Fin n) (Fin n) K), unpackABC (packABC A b C) = (A, b, C)) ∧
    (∀ x : Matrix (Fin n) (Fin (2 * n + 1)) K, packABC (unpackABC x).1 (unpackABC x).2.1 (unpackABC x).2.2 = x) ∧
    (∀ (S : Matrix (Fin n) (Fin n) K) (v : Fin n → K), unpackSv (packSv S v) = (S, v)) ∧
    (∀ x : Matrix (Fin n) (Fin (n + 1)) K, packSv (unpackSv x).1 (unpackSv x).2 = x) :=
  ⟨unpack_packABCEJ, pack_unpackABCEJ, unpack_packPsiphi, pack_unpackPsiphi, unpack_packABC, pack_unpackABC, unpack_packSv,
    pack_unpackSv⟩

/-- C36: the packings of the TensorFlow code and their unpackings are inverse to each other. -/
theorem C36_tf :
    (∀ e : Elem n K, unpackABCEJTF (packABCEJTF e) = e) ∧
    (∀ x : Matrix (Fin n) (Fin (3 * n + 2)) K, packABCEJTF (unpackABCEJTF x) = x) ∧
    (∀ (Psi : Matrix (Fin n) (Fin n) K) (phi : Fin n → K), unpackPsiphiTF (packPsiphiTF Psi phi) = (Psi, phi)) ∧
    (∀ x : Matrix (Fin n) (Fin (n + 1)) K, packPsiphiTF (unpackPsiphiTF x).1 (unpackPsiphiTF x).2 = x) ∧
    (∀ (A : Matrix (Fin n) (Fin n) K) (b : Fin n → K) (C : Matrix (Fin n) (Fin n) K),
      unpackABCTF (packABCTF A b C) = (A, b, C)) ∧
    (∀ x : Matrix (Fin n) (Fin (2 * n + 1)) K,
      packABCTF (unpackABCTF x).1 (unpackABCTF x).2.1 (unpackABCTF x).2.2 = x) ∧
    (∀ (S : Matrix (Fin n) (Fin n) K) (v : Fin n → K), unpackSvTF (packSvTF S v) = (S, v)) ∧
    (∀ x : Matrix (Fin n) (Fin (n + 1)) K, packSvTF (unpackSvTF x).1 (unpackSvTF x).2 = x) := by
  simp only [packABCEJTF_eq, packPsiphiTF_eq, packABCTF_eq, packSvTF_eq]
  exact C36_np

/-- C36: both codes use the same layouts. -/
theorem C36_layout :
    (∀ e : Elem n K, packABCEJTF e = packABCEJ e) ∧
    (∀ (Psi : Matrix (Fin n) (Fin n) K) (phi : Fin n → K), packPsiphiTF Psi phi = packPsiphi Psi phi) ∧
    (∀ (A : Matrix (Fin n) (Fin n) K) (b : Fin n → K) (C : Matrix (Fin n) (Fin n) K), packABCTF A b C = packABC A b C) ∧
    (∀ (S : Matrix (Fin n) (Fin n) K) (v : Fin n → K), packSvTF S v = packSv S v) :=
  ⟨packABCEJTF_eq, packPsiphiTF_eq, packABCTF_eq, packSvTF_eq⟩

end C36

example : packABCEJ (⟨!![1, 2; 3, 4], ![5, 6], !![7, 8; 9, 10], ![11, 12], !![13, 14; 15, 16]⟩ : Elem 2 ℤ) =
    !![1, 2, 7, 8, 13, 14, 5, 11; 3, 4, 9, 10, 15, 16, 6, 12] ∧
    unpackABCEJ (!![1, 2, 7, 8, 13, 14, 5, 11; 3, 4, 9, 10, 15, 16, 6, 12] : Matrix (Fin 2) (Fin (3 * 2 + 2)) ℤ) =
      ⟨!![1, 2; 3, 4], ![5, 6], !![7, 8; 9, 10], ![11, 12], !![13, 14; 15, 16]⟩ := by
  constructor
  · decide
  · rw [Elem.mk.injEq]
    decide

/-! ### C40 -/

section C40
variable {n m : ℕ} {K : Type} [Field K] [LinearOrder K]

/-- C40 (sequential pass): `steps` gains and `steps + 1` value functions; the last one is the terminal value function, the
others are symmetric; each is the symmetrised Runge-Kutta step of the Riccati equation from the next, and its gains come
from it. -/
theorem C40_seq (P : CLQT n m K) (steps : ℕ) (odt t0 : Option K) (S : Option (Matrix (Fin n) (Fin n) K))
    (v : Option (Fin n → K)) (r : BwResult n m K) (h : P.seqBackwardPass steps odt t0 S v = .ok r) :
    r.Kx_list.length = steps ∧ r.d_list.length = steps ∧ r.S_list.length = steps + 1 ∧ r.v_list.length = steps + 1 ∧
    r.S_list[steps]? = some (S.getD (P.HTᵀ * P.XT * P.HT)) ∧
    r.v_list[steps]? = some (v.getD ((P.HTᵀ * P.XT) *ᵥ P.rT)) ∧
    ∃ dt, odt.elim (dt * steps = P.T) (fun d => dt = d) ∧
    ∀ k < steps, ∃ Sk vk Sk1 vk1 x ULT, r.S_list[k]? = some Sk ∧ r.v_list[k]? = some vk ∧
      r.S_list[k + 1]? = some Sk1 ∧ r.v_list[k + 1]? = some vk1 ∧ Skᵀ = Sk ∧
      rk4T P.riccatiOdeF (-dt) (packSv Sk1 vk1) (t0.getD 0 + (k + 1) * dt) = .ok x ∧
      Sk = (1 / 2 : K) • ((unpackSv x).1 + (unpackSv x).1ᵀ) ∧ vk = (unpackSv x).2 ∧
      solvePos (P.U (t0.getD 0 + k * dt)) (P.L (t0.getD 0 + k * dt))ᵀ = .ok ULT ∧
      r.Kx_list[k]? = some (ULT * Sk) ∧ r.d_list[k]? = some (ULT *ᵥ vk) := by
  obtain ⟨dt, hdt, σ, κ, h0, hs, rfl⟩ := CLQT.seqBackward_ok.1 h
  refine ⟨by simp [bwLists], by simp [bwLists], by simp [bwLists], by simp [bwLists], by simp [bwLists, h0],
    by simp [bwLists, h0], dt, ?_, fun k hk => ?_⟩
  · cases odt with
    | some d => exact (Except.ok.inj hdt).symm
    | none =>
      obtain ⟨h1, rfl⟩ := pyDiv_ok.1 hdt
      exact div_mul_cancel₀ _ h1
  · obtain ⟨h1, h2⟩ := hs k hk
    have hsym := CLQT.bwF_sym h1
    unfold CLQT.bwF at h1
    unfold CLQT.gainF at h2
    simp only [bind_ok, pure, Except.pure, Except.ok.injEq] at h1 h2
    obtain ⟨x, hx, hσ⟩ := h1
    obtain ⟨ULT, hU, hκ⟩ := h2
    have hk1 : k < steps + 1 := by omega
    refine ⟨(σ k).1, (σ k).2, (σ (k + 1)).1, (σ (k + 1)).2, x, ULT, by simp [bwLists, hk1], by simp [bwLists, hk1],
      by simp [bwLists, hk], by simp [bwLists, hk], hsym, hx, by rw [← hσ]; rfl, by rw [← hσ], hU,
      by simp [bwLists, hk, ← hκ], by simp [bwLists, hk, ← hκ]⟩

/-- C40 (parallel pass, lists): `blocks * steps` gains and `blocks * steps + 1` value functions, all symmetric, the last one
being the terminal value function. -/
theorem C40_par_lists (P : CLQT n m K) (hXT : P.XTᵀ = P.XT) (blocks steps : ℕ) (odt t0 : Option K) (forward : Bool)
    (r : BwResult n m K) (h : P.parBackwardPass blocks steps odt t0 forward = .ok r) (hs : steps ≠ 0) :
    r.Kx_list.length = blocks * steps ∧ r.d_list.length = blocks * steps ∧ r.S_list.length = blocks * steps + 1 ∧
    r.v_list.length = blocks * steps + 1 ∧ (∀ S ∈ r.S_list, Sᵀ = S) ∧
    r.S_list[blocks * steps]? = some (P.HTᵀ * P.XT * P.HT) ∧
    r.v_list[blocks * steps]? = some ((P.HTᵀ * P.XT) *ᵥ P.rT) := by
  obtain ⟨dt, hdt, E, w, σ, κ, hE, hwB, hw, hc, hσ, rfl⟩ := CLQT.parBackward_ok h hXT
  refine ⟨flatten_len _ _ _, flatten_len _ _ _, congrArg (· + 1) (flatten_len _ _ _), congrArg (· + 1) (flatten_len _ _ _),
    ?_, ?_, ?_⟩
  · intro S hS
    rcases List.mem_cons.1 hS with rfl | hS
    · exact (hw 0 (by omega)).2.2
    · simp only [List.mem_flatten, List.mem_map, List.mem_range] at hS
      obtain ⟨l, ⟨q, hq, rfl⟩, hl⟩ := hS
      obtain ⟨i, hi, rfl⟩ := List.mem_map.1 hl
      rcases Nat.lt_or_ge (i + 1) steps with h1 | h1
      · exact CLQT.bwF_sym ((hσ q hq).2 (i + 1) h1).1
      · have : i + 1 = steps := le_antisymm (List.mem_range.1 hi) h1
        rw [this, (hσ q hq).1]
        exact (hw (q + 1) (by omega)).2.2
  all_goals
    rcases Nat.eq_zero_or_pos blocks with rfl | hB
    · simp [hwB]
    · have e : blocks * steps = ((blocks - 1) * steps + (steps - 1)) + 1 := by
        obtain ⟨b, rfl⟩ := Nat.exists_eq_succ_of_ne_zero hB.ne'
        obtain ⟨s, rfl⟩ := Nat.exists_eq_succ_of_ne_zero hs
        simp only [Nat.succ_eq_add_one, Nat.add_sub_cancel]
        ring
      rw [e, List.getElem?_cons_succ, flatten_get _ (by omega) (by omega), Nat.sub_add_cancel (by omega),
        (hσ _ (by omega)).1, Nat.sub_add_cancel (by omega), hwB]

/-- C40 (parallel pass, inside a block): the gains of block `q` and its value functions after the first are those of the
sequential pass over the block, started from the value function that the scan puts at the end of the block. -/
theorem C40_par_blocks (P : CLQT n m K) (hXT : P.XTᵀ = P.XT) (blocks steps : ℕ) (odt t0 : Option K) (forward : Bool)
    (r : BwResult n m K) (h : P.parBackwardPass blocks steps odt t0 forward = .ok r) (hs : steps ≠ 0) :
    ∃ dt, odt.elim (dt * blocks * steps = P.T) (fun d => dt = d) ∧
    ∀ q < blocks, ∃ S v b, r.S_list[(q + 1) * steps]? = some S ∧ r.v_list[(q + 1) * steps]? = some v ∧
      P.seqBackwardPass steps (some dt) (some (t0.getD 0 + q * steps * dt)) (some S) (some v) = .ok b ∧
      ∀ i < steps, r.Kx_list[q * steps + i]? = b.Kx_list[i]? ∧ r.d_list[q * steps + i]? = b.d_list[i]? ∧
        r.S_list[q * steps + i + 1]? = b.S_list[i + 1]? ∧ r.v_list[q * steps + i + 1]? = b.v_list[i + 1]? := by
  obtain ⟨dt, hdt, E, w, σ, κ, hE, hwB, hw, hc, hσ, rfl⟩ := CLQT.parBackward_ok h hXT
  refine ⟨dt, ?_, fun q hq => ?_⟩
  · cases odt with
    | some d => exact (Except.ok.inj hdt).symm
    | none =>
      unfold CLQT.dtPar at hdt
      simp only [bind_ok] at hdt
      obtain ⟨a, ha, hb⟩ := hdt
      obtain ⟨h1, rfl⟩ := pyDiv_ok.1 ha
      obtain ⟨h2, rfl⟩ := pyDiv_ok.1 hb
      show P.T / steps / blocks * blocks * steps = P.T
      rw [div_mul_cancel₀ _ h2, div_mul_cancel₀ _ h1]
  · obtain ⟨h1, h2⟩ := hσ q hq
    have e : (q + 1) * steps = (q * steps + (steps - 1)) + 1 := by
      rw [Nat.succ_mul]
      omega
    refine ⟨(w (q + 1)).J, (w (q + 1)).eta, bwLists steps (σ q) (κ q), ?_, ?_,
      CLQT.seqBackward_ok.2 ⟨dt, P.dtSeq_some _ _, σ q, κ q, by rw [h1]; rfl, ?_, rfl⟩, fun i hi => ⟨?_, ?_, ?_, ?_⟩⟩
    · rw [e, List.getElem?_cons_succ, flatten_get _ hq (by omega), Nat.sub_add_cancel (by omega), h1]
    · rw [e, List.getElem?_cons_succ, flatten_get _ hq (by omega), Nat.sub_add_cancel (by omega), h1]
    · rw [Option.getD_some]
      have : (q : K) * steps * dt = q * dt * steps := by ring
      rw [this]
      exact h2
    · rw [flatten_get _ hq hi]
      simp [bwLists, hi]
    · rw [flatten_get _ hq hi]
      simp [bwLists, hi]
    · rw [List.getElem?_cons_succ, flatten_get _ hq hi]
      simp [bwLists, hi]
    · rw [List.getElem?_cons_succ, flatten_get _ hq hi]
      simp [bwLists, hi]

/-- C40 (parallel pass, block boundaries): the value function at the start of block `q` is the element of the block
applied to the value function at the start of block `q + 1` by the combination rule. -/
theorem C40_par_boundary (P : CLQT n m K) (hXT : P.XTᵀ = P.XT) (blocks steps : ℕ) (dt : K) (t0 : Option K) (forward : Bool)
    (r : BwResult n m K) (h : P.parBackwardPass blocks steps (some dt) t0 forward = .ok r) (hs : steps ≠ 0)
    (q : ℕ) (hq : q < blocks) (S : Matrix (Fin n) (Fin n) K) (v : Fin n → K) (E e : Elem n K)
    (hS : r.S_list[(q + 1) * steps]? = some S) (hv : r.v_list[(q + 1) * steps]? = some v)
    (hE : P.blockElem forward steps dt (t0.getD 0) q = .ok E) (he : combineABCEJ E ⟨0, 0, 0, v, S⟩ = .ok e) :
    r.S_list[q * steps]? = some e.J ∧ r.v_list[q * steps]? = some e.eta := by
  obtain ⟨dt', hdt, E', w, σ, κ, hE', hwB, hw, hc, hσ, rfl⟩ := CLQT.parBackward_ok h hXT
  obtain rfl := Except.ok.inj hdt
  have hb : ∀ q < blocks, ((w 0).J :: ((List.range blocks).map fun q => (List.range steps).map fun i => (σ q (i + 1)).1).flatten)[(q + 1) * steps]? =
      some (w (q + 1)).J ∧
      ((w 0).eta :: ((List.range blocks).map fun q => (List.range steps).map fun i => (σ q (i + 1)).2).flatten)[(q + 1) * steps]? =
      some (w (q + 1)).eta := by
    intro q hq
    have e : (q + 1) * steps = (q * steps + (steps - 1)) + 1 := by
      rw [Nat.succ_mul]
      omega
    rw [e, List.getElem?_cons_succ, flatten_get _ hq (by omega), List.getElem?_cons_succ, flatten_get _ hq (by omega),
      Nat.sub_add_cancel (by omega), (hσ q hq).1]
    exact ⟨rfl, rfl⟩
  obtain ⟨b1, b2⟩ := hb q hq
  rw [b1, Option.some.injEq] at hS
  rw [b2, Option.some.injEq] at hv
  rw [hE' q hq, Except.ok.injEq] at hE
  subst hS hv hE
  rw [← (hw (q + 1) hq).1] at he
  have hwq := hc q hq e he
  rw [← hwq]
  cases q with
  | zero => simp
  | succ q => exact hb q (by omega)

/-- C40 (last block): the gains of the last block and its value functions after the first are those of the sequential pass
over the whole horizon. -/
theorem C40_par_last (P : CLQT n m K) (hXT : P.XTᵀ = P.XT) (blocks steps : ℕ) (dt : K) (t0 : Option K) (forward : Bool)
    (r r' : BwResult n m K) (h : P.parBackwardPass (blocks + 1) steps (some dt) t0 forward = .ok r) (hs : steps ≠ 0)
    (h' : P.seqBackwardPass ((blocks + 1) * steps) (some dt) t0 = .ok r') (j : ℕ) (hj : blocks * steps ≤ j) :
    r.Kx_list[j]? = r'.Kx_list[j]? ∧ r.d_list[j]? = r'.d_list[j]? ∧ r.S_list[j + 1]? = r'.S_list[j + 1]? ∧
      r.v_list[j + 1]? = r'.v_list[j + 1]? := by
  obtain ⟨l1, l2, l3, l4, -, hS, hv⟩ := C40_par_lists P hXT _ _ _ _ _ r h hs
  obtain ⟨dt', hdt, hb⟩ := C40_par_blocks P hXT _ _ _ _ _ r h hs
  obtain rfl : dt' = dt := hdt
  obtain ⟨S, v, b, h1, h2, h3, h4⟩ := hb blocks (by omega)
  rw [hS, Option.some.injEq] at h1
  rw [hv, Option.some.injEq] at h2
  obtain ⟨dt1, hdt1, σ, κ, e1, s1, rfl⟩ := CLQT.seqBackward_ok.1 h3
  obtain rfl := Except.ok.inj hdt1
  obtain ⟨dt2, hdt2, σ', κ', e2, s2, rfl⟩ := CLQT.seqBackward_ok.1 h'
  obtain rfl := Except.ok.inj hdt2
  subst h1 h2
  have s2' : P.BwSeq steps dt' (t0.getD 0 + blocks * steps * dt') (fun i => σ' (blocks * steps + i)) (fun i => κ' (blocks * steps + i)) := by
    intro i hi
    have := s2 (blocks * steps + i) (by rw [Nat.succ_mul]; omega)
    push_cast at this
    refine ⟨?_, ?_⟩
    · rw [← this.1]
      congr 1
      ring
    · rw [← this.2]
      congr 1
      ring
  obtain ⟨u1, u2⟩ := CLQT.BwSeq.unique s1 s2' (by
    show σ steps = σ' (blocks * steps + steps)
    rw [← Nat.succ_mul, e1, e2]
    rfl)
  rcases Nat.lt_or_ge j ((blocks + 1) * steps) with hlt | hge
  · obtain ⟨i, rfl⟩ := Nat.exists_eq_add_of_le hj
    have hi : i < steps := by
      rw [Nat.succ_mul] at hlt
      omega
    obtain ⟨g1, g2, g3, g4⟩ := h4 i hi
    have hlt' : blocks * steps + i + 1 < (blocks + 1) * steps + 1 := by omega
    have c1 := u1 (i + 1) hi
    have c2 := u2 i hi
    rw [g1, g2, g3, g4]
    simp only [bwLists, List.getElem?_map, List.getElem?_range hi, List.getElem?_range hlt, List.getElem?_range hlt',
      List.getElem?_range (Nat.succ_lt_succ hi), Option.map_some]
    rw [c1, c2]
    simp [Nat.add_assoc]
  · have n1 : r.Kx_list[j]? = none := List.getElem?_eq_none (by rw [l1]; exact hge)
    have n2 : r.d_list[j]? = none := List.getElem?_eq_none (by rw [l2]; exact hge)
    have n3 : r.S_list[j + 1]? = none := List.getElem?_eq_none (by rw [l3]; omega)
    have n4 : r.v_list[j + 1]? = none := List.getElem?_eq_none (by rw [l4]; omega)
    rw [n1, n2, n3, n4]
    refine ⟨?_, ?_, ?_, ?_⟩ <;>
    · symm
      apply List.getElem?_eq_none
      simp only [bwLists, List.length_map, List.length_range]
      omega

end C40

/-- Scalar problem `x' = u` with terminal weight 1 and horizon 1. -/
def exGain : CLQT 1 1 ℚ := { exInt with T := 1 }

/-- C40 (finding): at the start of a block the returned value function is not the one its gain is computed from: in this
example `U = L = 1` and the first gain is not `S_list[0]`. -/
theorem C40_gain_mismatch :
    exGain.parBackwardPass 1 1 =
      .ok ⟨[!![11935 / 24576]], [0], [!![1 / 2], !![1]], [0, 0]⟩ := by
  have h : (match exGain.parBackwardPass 1 1 with
      | .ok r => decide (r.Kx_list = [!![11935 / 24576]] ∧ r.d_list = [0] ∧ r.S_list = [!![1 / 2], !![1]] ∧ r.v_list = [0, 0])
      | .error _ => false) = true := by decide +kernel
  revert h
  cases exGain.parBackwardPass 1 1 with
  | error e => simp
  | ok r =>
    intro h
    obtain ⟨h1, h2, h3, h4⟩ := of_decide_eq_true h
    obtain ⟨a, b, c, d⟩ := r
    dsimp only at h1 h2 h3 h4
    rw [h1, h2, h3, h4]

/-- C40 (finding): the first value function of the parallel pass is not that of the sequential pass. -/
theorem C40_inexact : ∃ r r', exGain.parBackwardPass 1 1 = .ok r ∧ exGain.seqBackwardPass 1 = .ok r' ∧
    r.S_list[0]? = some !![1 / 2] ∧ r'.S_list[0]? = some !![11935 / 24576] := by
  have h : (match exGain.seqBackwardPass 1 with
      | .ok r => decide (r.S_list[0]? = some !![11935 / 24576])
      | .error _ => false) = true := by decide +kernel
  revert h
  cases hs : exGain.seqBackwardPass 1 with
  | error e => simp
  | ok r' =>
    intro h
    exact ⟨_, r', C40_gain_mismatch, rfl, rfl, of_decide_eq_true h⟩

example : ∃ r, exCL.seqBackwardPass 3 = .ok r ∧ r.S_list.length = 4 ∧ r.Kx_list.length = 3 := by
  obtain ⟨r, hr⟩ := (CLQT.reg_of_pd exCL_U).seqBackward 3 2 none none none
  have hd : exCL.dtSeq 3 none = .ok 2 := pyDiv_ok.2 ⟨by norm_num, by norm_num [exCL]⟩
  have hr' : exCL.seqBackwardPass 3 = .ok r := by
    obtain ⟨dt, hdt, h⟩ := CLQT.seqBackward_ok.1 hr
    obtain rfl := Except.ok.inj hdt
    exact CLQT.seqBackward_ok.2 ⟨_, hd, h⟩
  obtain ⟨h1, -, h3, -⟩ := C40_seq exCL 3 none none none none r hr'
  exact ⟨r, hr', h3, h1⟩

example : ∀ S ∈ [(!![1 / 2] : Matrix (Fin 1) (Fin 1) ℚ), !![1]], Sᵀ = S :=
  (C40_par_lists exGain (by decide) 1 1 none none false _ C40_gain_mismatch (by decide)).2.2.2.2.1

example : ∃ b, exGain.seqBackwardPass 1 (some 1) (some 0) (some !![1]) (some 0) = .ok b ∧
    b.Kx_list[0]? = some !![11935 / 24576] := by
  obtain ⟨dt, hdt, h⟩ := C40_par_blocks exGain (by decide) 1 1 none none false _ C40_gain_mismatch (by decide)
  obtain ⟨S, v, b, hS, hv, hb, h⟩ := h 0 (by decide)
  have hdt : dt = 1 := by simpa [exGain] using hdt
  obtain rfl : !![1] = S := by simpa using hS
  obtain rfl : 0 = v := by simpa using hv
  refine ⟨b, ?_, ?_⟩
  · rw [← hb, hdt]
    simp
  · rw [← (h 0 (by decide)).1]
    simp

example : ∃ r r', exGain.parBackwardPass 2 1 (some 1) = .ok r ∧ exGain.seqBackwardPass (2 * 1) (some 1) = .ok r' ∧
    r.Kx_list[1]? = r'.Kx_list[1]? ∧ r.S_list[2]? = r'.S_list[2]? := by
  have h1 : (match exGain.parBackwardPass 2 1 (some 1) with | .ok _ => true | .error _ => false) = true := by decide +kernel
  have h2 : (match exGain.seqBackwardPass (2 * 1) (some 1) with | .ok _ => true | .error _ => false) = true := by decide +kernel
  cases hr : exGain.parBackwardPass 2 1 (some 1) with
  | error e => simp [hr] at h1
  | ok r =>
    cases hr' : exGain.seqBackwardPass (2 * 1) (some 1) with
    | error e => simp [hr'] at h2
    | ok r' =>
      obtain ⟨e1, -, e2, -⟩ := C40_par_last exGain (by decide) 1 1 1 none false r r' hr (by decide) hr' 1 (by decide)
      exact ⟨r, r', rfl, rfl, e1, e2⟩

example : ∃ E e, exGain.blockElem false 1 1 0 0 = .ok E ∧ combineABCEJ E ⟨0, 0, 0, 0, !![1]⟩ = .ok e ∧ e.J = !![1 / 2] := by
  have h1 : (match exGain.blockElem false 1 1 0 0 >>= fun E => combineABCEJ E ⟨0, 0, 0, 0, !![1]⟩ with
    | .ok _ => true | .error _ => false) = true := by decide +kernel
  have h2 : exGain.parBackwardPass 1 1 (some 1) = .ok ⟨[!![11935 / 24576]], [0], [!![1 / 2], !![1]], [0, 0]⟩ := by
    have hd : exGain.dtPar 1 1 none = .ok 1 := by
      show (pyDiv (1 : ℚ) ((1 : ℕ) : ℚ) >>= fun a => pyDiv a ((1 : ℕ) : ℚ)) = .ok 1
      simp [pyDiv, bind, Except.bind]
    rw [← C40_gain_mismatch]
    unfold CLQT.parBackwardPass
    rw [hd, exGain.dtPar_some]
  cases hE : exGain.blockElem false 1 1 0 0 with
  | error e => simp [hE, bind, Except.bind] at h1
  | ok E =>
    cases he : combineABCEJ E ⟨0, 0, 0, 0, !![1]⟩ with
    | error e => simp [hE, he, bind, Except.bind] at h1
    | ok e =>
      obtain ⟨e1, -⟩ := C40_par_boundary exGain (by decide) 1 1 1 none false _ h2 (by decide) 0 (by decide) !![1] 0 E e rfl rfl hE
        he
      exact ⟨E, e, rfl, he, by simpa using e1.symm⟩

/-! ### C41 -/

section C41
variable {K : Type} [Field K]

/-- C41 (affine): on `x' = A(t) x + c(t)` the step is an affine map of the state, the one obtained by stepping
`Psi' = A Psi`, `phi' = A phi + c` from `(1, 0)`, and also the one obtained by stepping `Psi' = -Psi A`, `phi' = -Psi c`
backward from `(1, 0)`. -/
theorem C41_affine [CharZero K] {n : ℕ} (A : K → Matrix (Fin n) (Fin n) K) (c : K → Fin n → K) (dt t : K) :
    ∃ e : Matrix (Fin n) (Fin n) K × (Fin n → K),
      rk4T (fun (e : Matrix (Fin n) (Fin n) K × (Fin n → K)) t => .ok (A t * e.1, A t *ᵥ e.2 + c t)) dt (1, 0) t = .ok e ∧
      rk4T (fun (e : Matrix (Fin n) (Fin n) K × (Fin n → K)) t => .ok (-e.1 * A t, -e.1 *ᵥ c t)) (-dt) (1, 0) (t + dt) =
        .ok e ∧
      ∀ x : Fin n → K, rk4T (fun (x : Fin n → K) t => .ok (A t *ᵥ x + c t)) dt x t = .ok (e.1 *ᵥ x + e.2) := by
  refine ⟨(rkR dt (A t) (A (t + dt / 2)) (A (t + dt)),
    rkO dt (A (t + dt / 2)) (A (t + dt)) (c t) (c (t + dt / 2)) (c (t + dt))), ?_, ?_, fun x => ?_⟩
  · rw [rk4T_pure (g := fun (e : Matrix (Fin n) (Fin n) K × (Fin n → K)) t => (A t * e.1, A t *ᵥ e.2 + c t))
      (fun _ _ => rfl), rkStep_psi]
    simp
  · rw [rk4T_pure (g := fun (e : Matrix (Fin n) (Fin n) K × (Fin n → K)) t => (-e.1 * A t, -e.1 *ᵥ c t))
      (fun _ _ => rfl), rkStep_psi_bw]
    simp
  · rw [rk4T_pure (g := fun (x : Fin n → K) t => A t *ᵥ x + c t) (fun _ _ => rfl), rkStep_affine]

variable {X : Type} [AddCommGroup X] [Module K X]

/-- C41 (quadrature): on `x' = g(t)` the step is Simpson's rule. -/
theorem C41_simpson [CharZero K] (g : K → X) (dt t : K) (x : X) :
    rk4T (fun _ t => .ok (g t)) dt x t = .ok (x + (dt / 6) • (g t + (4 : K) • g (t + dt / 2) + g (t + dt))) := by
  rw [rk4T_pure (g := fun _ t => g t) (fun _ _ => rfl)]
  congr 1
  unfold rkStep
  module

/-- C41 (exactness): the step integrates cubic polynomials in time exactly. -/
theorem C41_cubic [CharZero K] (a0 a1 a2 a3 x : X) (dt t : K) :
    rk4T (fun _ s => .ok (a0 + s • a1 + s ^ 2 • a2 + s ^ 3 • a3)) dt x t =
      .ok (x + (((t + dt) - t) • a0 + (((t + dt) ^ 2 - t ^ 2) / 2) • a1 + (((t + dt) ^ 3 - t ^ 3) / 3) • a2 +
        (((t + dt) ^ 4 - t ^ 4) / 4) • a3)) := by
  rw [C41_simpson (fun s => a0 + s • a1 + s ^ 2 • a2 + s ^ 3 • a3)]
  congr 1
  match_scalars <;> field_simp <;> ring

/-- C41 (order): quartic polynomials are not integrated exactly. -/
theorem C41_quartic [CharZero K] : rk4T (fun _ s => .ok (s ^ 4)) (1 : K) (0 : K) 0 = .ok (5 / 24) ∧ (5 / 24 : K) ≠ 1 / 5 := by
  rw [C41_simpson (fun s => s ^ 4)]
  constructor
  · congr 1
    simp only [smul_eq_mul]
    norm_num
  · norm_num

/-- C41 (Taylor): on `x' = A x` the step multiplies by the degree 4 Taylor polynomial of the exponential. -/
theorem C41_taylor [CharZero K] {n : ℕ} (A : Matrix (Fin n) (Fin n) K) (dt : K) (x : Fin n → K) :
    rk4 (fun x => .ok (A *ᵥ x)) dt x =
      .ok ((∑ k ∈ Finset.range 5, (1 / (k.factorial : K)) • (dt • A) ^ k) *ᵥ x) := by
  show Except.ok _ = _
  congr 1
  simp only [Finset.sum_range_succ, Finset.sum_range_zero, zero_add, Nat.factorial, pow_zero, pow_succ, one_mul,
    Matrix.add_mulVec, Matrix.smul_mulVec, Matrix.mulVec_add, Matrix.mulVec_smul, Matrix.mul_smul, Matrix.smul_mul,
    ← Matrix.mulVec_mulVec, Matrix.one_mulVec]
  push_cast
  match_scalars <;> field_simp <;> ring

/-- C41 (forms): the step without time or parameter is the step with a right hand side that ignores them, and the
TensorFlow function is the numpy one. -/
theorem C41_forms {Q : Type} (f : X → Py X) (fp : X → Q → Py X) (ft : X → K → Py X) (ftp : X → K → Q → Py X) (dt t : K)
    (x : X) (p : Q) :
    rk4 f dt x = rk4T (fun x _ => f x) dt x t ∧ rk4P fp dt x p = rk4 (fun x => fp x p) dt x ∧
    rk4TP ftp dt x t p = rk4T (fun x t => ftp x t p) dt x t ∧ rk4T ft dt x t = rk4TP (fun x t _ => ft x t) dt x t p ∧
    rk4TF ftp dt x t p = rk4TP ftp dt x t p := by
  refine ⟨rfl, rfl, rfl, rfl, ?_⟩
  unfold rk4TF rk4TP
  have : (1 / 2) * dt = dt / 2 := by ring
  rw [this]

/-- C41 (errors): an exception of the right hand side at the start of the step is raised. -/
theorem C41_errors (f : X → K → Py X) (dt t : K) (x : X) (e : PyErr) (h : f x t = .error e) : rk4T f dt x t = .error e := by
  unfold rk4T
  rw [h]
  rfl

end C41

example : rk4T (fun (_ : ℚ) (s : ℚ) => .ok (1 + s • 2 + s ^ 2 • 3 + s ^ 3 • 4)) 2 5 1 = .ok (5 + (2 + 8 + 26 + 80)) := by
  rw [C41_cubic]
  norm_num

example : rk4 (fun x : Fin 2 → ℚ => .ok (!![0, 1; 0, 0] *ᵥ x)) (3 : ℚ) ![1, 2] = .ok ![7, 2] := by
  rw [C41_taylor]
  exact congrArg _ (by decide +kernel)

end Verif
