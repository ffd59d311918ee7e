import Verif.Proof.RK4
import Verif.Proof.CLQTPack
import Verif.Proof.LQTFwd
import Verif.Proof.PararealFw

/-! The parallel forward pass of the continuous-time tracker. -/

namespace Verif

open Matrix

section Map
variable {X Y K : Type} [Field K] [AddCommGroup X] [Module K X] [AddCommGroup Y] [Module K Y]

/-- Runge-Kutta steps commute with linear changes of variables. -/
theorem rkStep_map (φ : X →ₗ[K] Y) {g : X → K → X} {g' : Y → K → Y} (h : ∀ x t, φ (g x t) = g' (φ x) t) (dt : K) (x : X) (t : K) :
    φ (rkStep g dt x t) = rkStep g' dt (φ x) t := by
  unfold rkStep
  simp only [map_add, map_smul, h]

end Map

variable {n m : ℕ} {K : Type} [Field K]

/-- `unpackPsiphi` as a linear map. -/
def unpackPsiphiL : Matrix (Fin n) (Fin (n + 1)) K →ₗ[K] Matrix (Fin n) (Fin n) K × (Fin n → K) where
  toFun := unpackPsiphi
  map_add' _ _ := rfl
  map_smul' _ _ := rfl

/-- Affine map of one Runge-Kutta step of the closed loop from time `t`. -/
def CLQT.stepE (P : CLQT n m K) (dt t : K) (g : Matrix (Fin m) (Fin n) K × (Fin m → K)) :
    Matrix (Fin n) (Fin n) K × (Fin n → K) :=
  let A := fun t => P.F t - P.L t * g.1
  let c := fun t => P.c t + P.L t *ᵥ g.2
  (rkR dt (A t) (A (t + dt / 2)) (A (t + dt)), rkO dt (A (t + dt / 2)) (A (t + dt)) (c t) (c (t + dt / 2)) (c (t + dt)))

section CharZero
variable [CharZero K]

theorem CLQT.psi_fw (P : CLQT n m K) [LinearOrder K] (dt t : K) (g : Matrix (Fin m) (Fin n) K × (Fin m → K))
    (e : Matrix (Fin n) (Fin n) K × (Fin n → K)) :
    ∃ x, rk4TP P.fwpassFwOdeF dt (packPsiphi e.1 e.2) t g = .ok x ∧ unpackPsiphi x = combineFC e (P.stepE dt t g) := by
  refine ⟨_, rk4TP_pure (g := fun x t => packPsiphi ((P.F t - P.L t * g.1) * (unpackPsiphi x).1)
      ((P.F t - P.L t * g.1) *ᵥ (unpackPsiphi x).2 + (P.c t + P.L t *ᵥ g.2))) (fun _ _ => rfl) dt _ t, ?_⟩
  have h := rkStep_map (unpackPsiphiL (n := n) (K := K))
    (g := fun x t => packPsiphi ((P.F t - P.L t * g.1) * (unpackPsiphi x).1)
      ((P.F t - P.L t * g.1) *ᵥ (unpackPsiphi x).2 + (P.c t + P.L t *ᵥ g.2)))
    (g' := fun e t => ((P.F t - P.L t * g.1) * e.1, (P.F t - P.L t * g.1) *ᵥ e.2 + (P.c t + P.L t *ᵥ g.2)))
    (fun x t => unpack_packPsiphi _ _) dt (packPsiphi e.1 e.2) t
  refine Eq.trans h ?_
  have e0 : unpackPsiphiL (packPsiphi e.1 e.2) = e := unpack_packPsiphi _ _
  rw [e0, rkStep_psi (fun t => P.F t - P.L t * g.1) (fun t => P.c t + P.L t *ᵥ g.2)]
  rfl

theorem CLQT.psi_bw (P : CLQT n m K) [LinearOrder K] (dt t : K) (g : Matrix (Fin m) (Fin n) K × (Fin m → K))
    (e : Matrix (Fin n) (Fin n) K × (Fin n → K)) :
    ∃ x, rk4TP P.fwpassBwOdeF (-dt) (packPsiphi e.1 e.2) (t + dt) g = .ok x ∧
      unpackPsiphi x = combineFC (P.stepE dt t g) e := by
  refine ⟨_, rk4TP_pure (g := fun x t => packPsiphi (-(unpackPsiphi x).1 * (P.F t - P.L t * g.1))
      (-(unpackPsiphi x).1 *ᵥ (P.c t + P.L t *ᵥ g.2))) (fun _ _ => rfl) (-dt) _ (t + dt), ?_⟩
  have h := rkStep_map (unpackPsiphiL (n := n) (K := K))
    (g := fun x t => packPsiphi (-(unpackPsiphi x).1 * (P.F t - P.L t * g.1))
      (-(unpackPsiphi x).1 *ᵥ (P.c t + P.L t *ᵥ g.2)))
    (g' := fun e t => (-e.1 * (P.F t - P.L t * g.1), -e.1 *ᵥ (P.c t + P.L t *ᵥ g.2)))
    (fun x t => unpack_packPsiphi _ _) (-dt) (packPsiphi e.1 e.2) (t + dt)
  refine Eq.trans h ?_
  have e0 : unpackPsiphiL (packPsiphi e.1 e.2) = e := unpack_packPsiphi _ _
  rw [e0, rkStep_psi_bw (fun t => P.F t - P.L t * g.1) (fun t => P.c t + P.L t *ᵥ g.2)]
  rfl

variable [LinearOrder K]

theorem CLQT.fwF_aff (P : CLQT n m K) (dt t : K) (g : Matrix (Fin m) (Fin n) K × (Fin m → K)) (x : Fin n → K) :
    P.fwF false dt t g x = .ok (aff (P.stepE dt t g) x) := by
  have h := rkStep_affine (fun t => P.F t - P.L t * g.1) (fun t => P.c t + P.L t *ᵥ g.2) dt x t
  unfold CLQT.fwF
  rw [rk4T_pure (g := fun x t => (P.F t - P.L t * g.1) *ᵥ x + (P.c t + P.L t *ᵥ g.2)), h]
  · rfl
  · intro x t
    unfold CLQT.fwOdeF
    simp only [Bool.false_eq_true, if_false, Except.ok.injEq, mulVec_add, sub_mulVec, neg_mulVec, mulVec_neg, ← mulVec_mulVec]
    abel

/-- States of the closed loop. -/
def affSeq (e : ℕ → Matrix (Fin n) (Fin n) K × (Fin n → K)) (x : Fin n → K) : ℕ → Fin n → K
  | 0 => x
  | k + 1 => aff (e k) (affSeq e x k)

theorem affSeq_add (e : ℕ → Matrix (Fin n) (Fin n) K × (Fin n → K)) (x : Fin n → K) (a : ℕ) : ∀ b : ℕ,
    affSeq e x (a + b) = affSeq (fun i => e (a + i)) (affSeq e x a) b
  | 0 => rfl
  | b + 1 => by
    show aff (e (a + b)) (affSeq e x (a + b)) = _
    rw [affSeq_add e x a b]
    rfl

theorem CLQT.FwSeq.affSeq_eq {P : CLQT n m K} {N : ℕ} {dt t0 : K} {κ : ℕ → Matrix (Fin m) (Fin n) K × (Fin m → K)}
    {ξ : ℕ → Fin n → K} (h : P.FwSeq false N dt t0 κ ξ) :
    ∀ k ≤ N, ξ k = affSeq (fun k => P.stepE dt (t0 + k * dt) (κ k)) (ξ 0) k
  | 0, _ => rfl
  | k + 1, hk => by
    have := h k (by omega)
    rw [P.fwF_aff, Except.ok.injEq] at this
    rw [← this, h.affSeq_eq k (by omega)]
    rfl

theorem CLQT.affSeq_fwSeq (P : CLQT n m K) (N : ℕ) (dt t0 : K) (κ : ℕ → Matrix (Fin m) (Fin n) K × (Fin m → K)) (x : Fin n → K) :
    P.FwSeq false N dt t0 κ (affSeq (fun k => P.stepE dt (t0 + k * dt) (κ k)) x) := by
  intro k _
  rw [P.fwF_aff]
  rfl

theorem psi_fold_fw (e : ℕ → Matrix (Fin n) (Fin n) K × (Fin n → K)) {G : Matrix (Fin n) (Fin n) K × (Fin n → K) → ℕ → Py _} :
    ∀ (N : ℕ), (∀ E, ∀ i < N, G E i = .ok (combineFC E (e i))) →
    ∃ E, (List.range N).foldlM G (1, 0) = .ok E ∧ ∀ x, aff E x = affSeq e x N
  | 0, _ => ⟨(1, 0), rfl, fun x => by simp [aff, affSeq]⟩
  | N + 1, hG => by
    obtain ⟨E, h, hE⟩ := psi_fold_fw e N fun E i hi => hG E i (by omega)
    refine ⟨combineFC E (e N), ?_, fun x => by rw [aff_combine, hE]; rfl⟩
    rw [List.range_succ, List.foldlM_append, h]
    have : List.foldlM G E [N] = G E N := by simp
    show List.foldlM G E [N] = _
    rw [this, hG E N (by omega)]

theorem psi_fold_bw (e : ℕ → Matrix (Fin n) (Fin n) K × (Fin n → K)) {G : Matrix (Fin n) (Fin n) K × (Fin n → K) → ℕ → Py _} :
    ∀ (N : ℕ), (∀ E, ∀ i < N, G E i = .ok (combineFC (e i) E)) →
    ∀ E₀, ∃ E, (List.range N).reverse.foldlM G E₀ = .ok E ∧ ∀ x, aff E x = aff E₀ (affSeq e x N)
  | 0, _, E₀ => ⟨E₀, rfl, fun x => rfl⟩
  | N + 1, hG, E₀ => by
    obtain ⟨E, h, hE⟩ := psi_fold_bw e N (fun E i hi => hG E i (by omega)) (combineFC (e N) E₀)
    refine ⟨E, ?_, fun x => by rw [hE, aff_combine]; rfl⟩
    rw [List.range_succ, List.reverse_append, List.reverse_singleton, List.singleton_append, List.foldlM_cons,
      hG E₀ N (by omega)]
    exact h

theorem CLQT.psiElem_ok (P : CLQT n m K) (forward : Bool) {B steps : ℕ} (κ : ℕ → Matrix (Fin m) (Fin n) K × (Fin m → K)) (dt t0 : K)
    {k : ℕ} (hk : k < B) : ∃ E, P.psiElem forward (gainLists (B * steps) κ).1 (gainLists (B * steps) κ).2 steps dt t0 k = .ok E ∧
      ∀ x, aff E x = affSeq (fun i => P.stepE dt (t0 + ((k * steps + i : ℕ) : K) * dt) (κ (k * steps + i))) x steps := by
  have hlt : ∀ i < steps, k * steps + i < B * steps := by
    intro i hi
    calc k * steps + i < k * steps + steps := by omega
      _ = (k + 1) * steps := by ring
      _ ≤ B * steps := Nat.mul_le_mul_right _ hk
  have g1 : ∀ i < steps, pyGet (gainLists (B * steps) κ).1 (k * steps + i) = .ok (κ (k * steps + i)).1 :=
    fun i hi => pyGet_seq _ (hlt i hi)
  have g2 : ∀ i < steps, pyGet (gainLists (B * steps) κ).2 (k * steps + i) = .ok (κ (k * steps + i)).2 :=
    fun i hi => pyGet_seq _ (hlt i hi)
  unfold CLQT.psiElem
  dsimp only
  cases forward with
  | true =>
    simp only [if_true]
    refine psi_fold_fw _ steps fun E i hi => ?_
    unfold CLQT.psiStep
    obtain ⟨x, h1, h2⟩ := P.psi_fw dt (t0 + ((k * steps + i : ℕ) : K) * dt) (κ (k * steps + i)) E
    simp only [bind_ok, pure, Except.pure, Except.ok.injEq]
    refine ⟨_, g1 i hi, _, g2 i hi, x, ?_, h2⟩
    rw [← h1]
    push_cast
    rfl
  | false =>
    simp only [Bool.false_eq_true, if_false]
    obtain ⟨E, h, hE⟩ := psi_fold_bw (fun i => P.stepE dt (t0 + ((k * steps + i : ℕ) : K) * dt) (κ (k * steps + i)))
      (G := fun E i => CLQT.psiStep P.fwpassBwOdeF (gainLists (B * steps) κ).1 (gainLists (B * steps) κ).2 (-dt)
        (t0 + (k * steps + i + 1) * dt) (k * steps + i) E) steps (fun E i hi => by
      unfold CLQT.psiStep
      obtain ⟨x, h1, h2⟩ := P.psi_bw dt (t0 + ((k * steps + i : ℕ) : K) * dt) (κ (k * steps + i)) E
      simp only [bind_ok, pure, Except.pure, Except.ok.injEq]
      refine ⟨_, g1 i hi, _, g2 i hi, x, ?_, h2⟩
      rw [← h1]
      congr 1
      push_cast
      ring) (1, 0)
    exact ⟨E, h, fun x => by rw [hE]; simp [aff]⟩

omit [CharZero K] in
theorem CLQT.dtPar_some (P : CLQT n m K) (B steps : ℕ) (dt : K) : P.dtPar B steps (some dt) = .ok dt := rfl

theorem CLQT.dtPar_none (P : CLQT n m K) (B steps : ℕ) : P.dtPar B steps none = P.dtSeq (B * steps) none := by
  unfold CLQT.dtPar CLQT.dtSeq pyDiv
  by_cases hs : steps = 0
  · simp [hs, bind, Except.bind]
  · by_cases hB : B = 0
    · simp [hs, hB, bind, Except.bind]
    · simp only [Nat.cast_eq_zero, hs, if_false, hB, bind, Except.bind, Nat.cast_mul, mul_eq_zero, or_self]
      congr 1
      field_simp

theorem CLQT.dtPar_eq (P : CLQT n m K) (B steps : ℕ) (odt : Option K) : P.dtPar B steps odt = P.dtSeq (B * steps) odt := by
  cases odt with
  | some dt => rfl
  | none => exact P.dtPar_none B steps

theorem foldl_aff_seq (e : ℕ → Matrix (Fin n) (Fin n) K × (Fin n → K)) (x : Fin n → K) : ∀ k : ℕ,
    ((List.range k).map e).foldl (fun x e => aff e x) x = affSeq e x k
  | 0 => rfl
  | k + 1 => by
    rw [List.range_succ, List.map_append, List.foldl_append, foldl_aff_seq e x k]
    rfl

theorem affSeq_blocks {e E : ℕ → Matrix (Fin n) (Fin n) K × (Fin n → K)} {steps B : ℕ}
    (h : ∀ k < B, ∀ x, aff (E k) x = affSeq (fun i => e (k * steps + i)) x steps) (x : Fin n → K) : ∀ k ≤ B,
    affSeq E x k = affSeq e x (k * steps)
  | 0, _ => by simp [affSeq]
  | k + 1, hk => by
    show aff (E k) (affSeq E x k) = _
    rw [h k (by omega), affSeq_blocks h x k (by omega), Nat.succ_mul, affSeq_add]

/-- The parallel forward pass without zero-order hold equals the sequential one. -/
theorem CLQT.parForward_eq (P : CLQT n m K) (x0 : Fin n → K) (κ : ℕ → Matrix (Fin m) (Fin n) K × (Fin m → K)) (B steps : ℕ)
    (odt t0 : Option K) (forward : Bool) :
    P.parForwardPass x0 (gainLists (B * steps) κ).1 (gainLists (B * steps) κ).2 B steps odt t0 forward false =
      P.seqForwardPass x0 (gainLists (B * steps) κ).1 (gainLists (B * steps) κ).2 odt t0 false := by
  have hlen : (gainLists (B * steps) κ).1.length = B * steps := by simp [gainLists]
  have hbe : ∀ {α β : Type} (e : PyErr) (f : α → Py β), ((Except.error e : Py α) >>= f) = .error e := fun _ _ => rfl
  cases hdt : P.dtSeq (B * steps) odt with
  | error e =>
    unfold CLQT.parForwardPass CLQT.seqForwardPass
    dsimp only
    rw [P.dtPar_eq, hlen, hdt]
    rfl
  | ok dt =>
    have hx := P.affSeq_fwSeq (B * steps) dt (t0.getD 0) κ x0
    set ξ := affSeq (fun k => P.stepE dt (t0.getD 0 + k * dt) (κ k)) x0 with hξ
    have hseq : P.seqForwardPass x0 (gainLists (B * steps) κ).1 (gainLists (B * steps) κ).2 odt t0 false =
        .ok ((List.range (B * steps)).map fun k => -(κ k).1 *ᵥ ξ k + (κ k).2, (List.range (B * steps + 1)).map ξ) :=
      CLQT.seqForward_ok.2 ⟨dt, hdt, ξ, rfl, hx, rfl⟩
    rw [hseq]
    unfold CLQT.parForwardPass
    dsimp only
    rw [P.dtPar_eq, hdt]
    choose! E hE1 hE2 using fun k (hk : k < B) => P.psiElem_ok forward (B := B) (steps := steps) κ dt (t0.getD 0) hk
    have hinit : P.parForwardInit x0 (gainLists (B * steps) κ).1 (gainLists (B * steps) κ).2 B steps (some dt)
        (some (t0.getD 0)) forward = .ok ((1, x0) :: (List.range B).map E) := by
      unfold CLQT.parForwardInit
      dsimp only
      haveI : Inhabited (Matrix (Fin n) (Fin n) K × (Fin n → K)) := ⟨0⟩
      simp only [P.dtPar_some, hlen, ne_eq, not_true, if_false, Option.getD_some]
      simp only [bind_ok, pure, Except.pure, Except.ok.injEq]
      exact ⟨dt, rfl, _, mapM_seq.2 ⟨E, rfl, hE1⟩, rfl⟩
    obtain ⟨el, hsc⟩ := scanVals_total fc_closed (a := (1, x0) :: (List.range B).map E) (by simp) (fun _ _ => trivial) false
    obtain ⟨hl, hp⟩ := scanVals_prefix hsc
    have hell : el.length = B + 1 := by simpa using hl
    have hsnd : ∀ k ≤ B, ∃ v, el[k]? = some v ∧ v.2 = ξ (k * steps) := by
      intro k hk
      obtain ⟨v, hv, hpar⟩ := hp k (by simp; omega)
      refine ⟨v, hv, ?_⟩
      have h1 := paren_aff hpar 0
      rw [List.take_succ_cons, List.foldl_cons] at h1
      have e1 : ((List.range B).map E).take k = (List.range k).map E := by
        rw [← List.map_take, List.take_range, Nat.min_eq_left hk]
      rw [e1, foldl_aff_seq, show aff (1, x0) (0 : Fin n → K) = x0 by simp [aff]] at h1
      rw [show aff v 0 = v.2 by simp [aff]] at h1
      rw [h1, affSeq_blocks (e := fun k => P.stepE dt (t0.getD 0 + k * dt) (κ k)) (fun k hk => hE2 k hk) x0 k hk]
    have hslice : ∀ k < B, P.seqForwardPass (ξ (k * steps)) (pySlice (gainLists (B * steps) κ).1 (k * steps) ((k + 1) * steps))
        (pySlice (gainLists (B * steps) κ).2 (k * steps) ((k + 1) * steps)) (some dt)
        (some (t0.getD 0 + k * steps * dt)) false =
        .ok ((List.range steps).map fun i => -(κ (k * steps + i)).1 *ᵥ ξ (k * steps + i) + (κ (k * steps + i)).2,
          (List.range (steps + 1)).map fun i => ξ (k * steps + i)) := by
      intro k hk
      have hle : k * steps + steps ≤ B * steps := by
        calc k * steps + steps = (k + 1) * steps := by ring
          _ ≤ B * steps := Nat.mul_le_mul_right _ hk
      rw [Nat.succ_mul]
      unfold gainLists
      rw [pySlice_gain κ Prod.fst hle, pySlice_gain κ Prod.snd hle]
      refine (CLQT.seqForward_ok (κ := fun i => κ (k * steps + i))).2 ⟨dt, rfl, fun i => ξ (k * steps + i), rfl, fun i hi => ?_, rfl⟩
      have := hx (k * steps + i) (by omega)
      simp only [Option.getD_some]
      rw [← add_assoc, ← this]
      congr 1
      push_cast
      ring
    have hext : P.parForwardExtract (gainLists (B * steps) κ).1 (gainLists (B * steps) κ).2 el steps (some dt) (some (t0.getD 0)) false =
        .ok ((List.range (B * steps)).map fun k => -(κ k).1 *ᵥ ξ k + (κ k).2, (List.range (B * steps + 1)).map ξ) := by
      unfold CLQT.parForwardExtract
      dsimp only
      rw [hell]
      haveI : Inhabited (List ((Fin m → K) × (Fin n → K))) := ⟨[]⟩
      haveI : Inhabited ((Fin m → K) × (Fin n → K)) := ⟨0⟩
      simp only [P.dtPar_some, hlen, Nat.add_sub_cancel, ne_eq, not_true, if_false, Option.getD_some]
      simp only [bind_ok, pure, Except.pure, Except.ok.injEq]
      obtain ⟨vB, hvB, hvB2⟩ := hsnd B le_rfl
      refine ⟨dt, rfl, (List.range B).map fun k => (List.range steps).map fun i =>
        (-(κ (k * steps + i)).1 *ᵥ ξ (k * steps + i) + (κ (k * steps + i)).2, ξ (k * steps + i)),
        mapM_seq.2 ⟨_, rfl, fun k hk => ?_⟩, vB, ?_, ?_⟩
      · obtain ⟨v, hv, hv2⟩ := hsnd k hk.le
        simp only [bind_ok]
        refine ⟨v, by rw [pyGet_eq, hv], _, by rw [hv2]; exact hslice k hk, ?_⟩
        simp only [List.length_map, List.length_range]
        refine mapM_seq.2 ⟨_, rfl, fun i hi => ?_⟩
        simp only [bind_ok]
        exact ⟨_, pyGet_seq _ hi, _, pyGet_seq _ (by omega), rfl⟩
      · rw [pyLast_ok, List.getLast?_eq_getElem?, hell]
        exact hvB
      · refine Prod.ext ?_ ?_
        · simp only
          rw [← seq_blocks (fun k => -(κ k).1 *ᵥ ξ k + (κ k).2) steps B, List.map_flatten, List.map_map]
          congr 1
          refine List.map_congr_left fun k _ => ?_
          simp
        · simp only
          rw [List.range_succ, List.map_append, ← seq_blocks ξ steps B, List.map_flatten, List.map_map, hvB2]
          congr 2
          refine List.map_congr_left fun k _ => ?_
          simp
    show (do let elems ← P.parForwardInit x0 _ _ B steps (some dt) (some (t0.getD 0)) forward; _) = _
    rw [hinit]
    show (do let elems ← scanVals _ _; _) = _
    rw [hsc]
    exact hext

end CharZero

end Verif
