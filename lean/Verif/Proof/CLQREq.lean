import Verif.Proof.CLQTSeq
import Verif.Proof.CLQTPack
import Verif.Proof.LQR
import Verif.Spec.CLQR

/-! The passes of the continuous-time regulator and the passes of the tracker on the same problem. -/

namespace Verif

open Matrix

/-! ### Loops and the integrator -/

section Gen
variable {σ τ ι : Type} {X Y : Type} {K : Type} [Field K] [AddCommGroup X] [Module K X] [AddCommGroup Y] [Module K Y]

theorem foldlM_congr' {f g : σ → ι → Py σ} {l : List ι} (h : ∀ a ∈ l, ∀ s, f s a = g s a) (s : σ) :
    l.foldlM f s = l.foldlM g s := by
  induction l generalizing s with
  | nil => rfl
  | cons a l ih =>
    rw [List.foldlM_cons, List.foldlM_cons, h a (by simp) s]
    refine bind_congr fun b => ih (fun a ha => h a (by simp [ha])) b

theorem foldlM_sim (π : σ → τ) {f : σ → ι → Py σ} {g : τ → ι → Py τ} {l : List ι}
    (h : ∀ a ∈ l, ∀ s, ∃ s', f s a = .ok s' ∧ g (π s) a = .ok (π s')) (s : σ) :
    ∃ s', l.foldlM f s = .ok s' ∧ l.foldlM g (π s) = .ok (π s') := by
  induction l generalizing s with
  | nil => exact ⟨s, rfl, rfl⟩
  | cons a l ih =>
    obtain ⟨s1, h1, h2⟩ := h a (by simp) s
    obtain ⟨s', h3, h4⟩ := ih (fun a ha => h a (by simp [ha])) s1
    refine ⟨s', ?_, ?_⟩
    · rw [List.foldlM_cons, h1]; exact h3
    · rw [List.foldlM_cons, h2]; exact h4

theorem rk4T_const {f : X → K → Py X} {g : X → Py X} (h : ∀ x t, f x t = g x) (dt : K) (x : X) (t : K) :
    rk4T f dt x t = rk4 g dt x := by
  unfold rk4T rk4
  simp only [h]

theorem rk4TP_const {Q R : Type} {f : X → K → Q → Py X} {g : X → R → Py X} {p : Q} {q : R} (h : ∀ x t, f x t p = g x q) (dt : K)
    (x : X) (t : K) : rk4TP f dt x t p = rk4P g dt x q := by
  unfold rk4TP rk4P
  simp only [h]

theorem rk4_proj (π : X →ₗ[K] Y) {f : X → Py X} {g : Y → Py Y} (h : ∀ x, ∃ y, f x = .ok y ∧ g (π x) = .ok (π y)) (dt : K)
    (x : X) : ∃ y, rk4 f dt x = .ok y ∧ rk4 g dt (π x) = .ok (π y) := by
  choose F h1 h2 using h
  have e : ∀ y, g (π y) = .ok (π (F y)) := h2
  have e1 : rk4 f dt x = .ok (x + (1 / 6 : K) • (dt • F x + (2 : K) • (dt • F (x + (1 / 2 : K) • (dt • F x))) +
      (2 : K) • (dt • F (x + (1 / 2 : K) • (dt • F (x + (1 / 2 : K) • (dt • F x))))) +
      dt • F (x + dt • F (x + (1 / 2 : K) • (dt • F (x + (1 / 2 : K) • (dt • F x))))))) := by
    unfold rk4
    simp only [h1]
    rfl
  refine ⟨_, e1, ?_⟩
  unfold rk4
  simp only [e, bind, Except.bind, ← map_smul, ← map_add]
  rfl

end Gen

variable {n m : ℕ} {K : Type} [Field K] [LinearOrder K]

/-! ### Backward pass -/

/-- First component of the packed value function. -/
def unpackSvL : Matrix (Fin n) (Fin (n + 1)) K →ₗ[K] Matrix (Fin n) (Fin n) K where
  toFun x := (unpackSv x).1
  map_add' _ _ := rfl
  map_smul' _ _ := rfl

/-- The packed value function without linear part. -/
def packSvL : Matrix (Fin n) (Fin n) K →ₗ[K] Matrix (Fin n) (Fin (n + 1)) K where
  toFun S := packSv S 0
  map_add' S R := by
    ext i j
    simp only [packSv, Matrix.of_apply, Matrix.add_apply]
    split_ifs <;> simp
  map_smul' a S := by
    ext i j
    simp only [packSv, Matrix.of_apply, Matrix.smul_apply, RingHom.id_apply]
    split_ifs <;> simp

theorem clqr_riccati (P : CLQR n m K) {ULT : Matrix (Fin m) (Fin n) K} (hULT : solvePos P.U P.Lᵀ = .ok ULT)
    (x : Matrix (Fin n) (Fin (n + 1)) K) (t : K) : P.toCLQT.riccatiOdeF x t =
      .ok (packSv (P.riccatiF (P.L * ULT) (unpackSv x).1)
        (-(P.Fᵀ *ᵥ (unpackSv x).2) + ((unpackSv x).1 * (P.L * ULT)) *ᵥ (unpackSv x).2)) := by
  have e : P.toCLQT.riccatiOdeF x t = (solvePos P.U P.Lᵀ).bind fun ULT => .ok (packSv
      (-P.Fᵀ * (unpackSv x).1 - (unpackSv x).1 * P.F + (unpackSv x).1 * (P.L * ULT) * (unpackSv x).1 -
        (1 : Matrix (Fin n) (Fin n) K)ᵀ * P.X * 1)
      (-((1 : Matrix (Fin n) (Fin n) K)ᵀ * P.X) *ᵥ (0 : Fin n → K) + (unpackSv x).1 *ᵥ (0 : Fin n → K) -
        P.Fᵀ *ᵥ (unpackSv x).2 + ((unpackSv x).1 * (P.L * ULT)) *ᵥ (unpackSv x).2)) := rfl
  rw [e, hULT]
  simp only [Except.bind, transpose_one, Matrix.one_mul, Matrix.mul_one, mulVec_zero, zero_add, zero_sub]
  rfl

theorem clqr_riccati_err (P : CLQR n m K) {e : PyErr} (h : solvePos P.U P.Lᵀ = .error e)
    (x : Matrix (Fin n) (Fin (n + 1)) K) (t : K) : P.toCLQT.riccatiOdeF x t = .error e := by
  have e1 : P.toCLQT.riccatiOdeF x t = (solvePos P.U P.Lᵀ).bind fun ULT => .ok (packSv
      (-P.Fᵀ * (unpackSv x).1 - (unpackSv x).1 * P.F + (unpackSv x).1 * (P.L * ULT) * (unpackSv x).1 -
        (1 : Matrix (Fin n) (Fin n) K)ᵀ * P.X * 1)
      (-((1 : Matrix (Fin n) (Fin n) K)ᵀ * P.X) *ᵥ (0 : Fin n → K) + (unpackSv x).1 *ᵥ (0 : Fin n → K) -
        P.Fᵀ *ᵥ (unpackSv x).2 + ((unpackSv x).1 * (P.L * ULT)) *ᵥ (unpackSv x).2)) := rfl
  rw [e1, h]
  rfl

theorem clqr_bwStep_err (P : CLQR n m K) {e : PyErr} (h : solvePos P.U P.Lᵀ = .error e) (dt t0 : K) (st : BwState n m K)
    (k : ℕ) : P.toCLQT.bwStep dt t0 st k = .error e := by
  unfold CLQT.bwStep rk4T
  dsimp only
  rw [clqr_riccati_err P h]
  rfl

theorem clqr_bwLoop_err (P : CLQR n m K) {e : PyErr} (h : solvePos P.U P.Lᵀ = .error e) (dt t0 : K) (st : BwState n m K)
    {steps : ℕ} (hs : 0 < steps) : (List.range steps).reverse.foldlM (P.toCLQT.bwStep dt t0) st = .error e := by
  obtain ⟨s, rfl⟩ := Nat.exists_eq_succ_of_ne_zero hs.ne'
  rw [List.range_succ, List.reverse_append, List.reverse_singleton, List.singleton_append, List.foldlM_cons,
    clqr_bwStep_err P h]
  rfl

/-- Loop variables of the regulator in those of the tracker. -/
def regOf (st : BwState n m K) : RegState n m K := ⟨st.S, st.Kx_list, st.S_list⟩

/-- Loop variables of the tracker with zero linear parts. -/
def bwOf (st : RegState n m K) : BwState n m K :=
  ⟨st.S, 0, st.Kx_list, List.replicate st.Kx_list.length 0, st.S_list, List.replicate st.S_list.length 0⟩

theorem clqr_bwStep (P : CLQR n m K) {ULT : Matrix (Fin m) (Fin n) K} (hULT : solvePos P.U P.Lᵀ = .ok ULT) (dt t0 : K)
    (st : BwState n m K) (k : ℕ) :
    ∃ st', P.toCLQT.bwStep dt t0 st k = .ok st' ∧ P.bwRkStep ULT dt (regOf st) = .ok (regOf st') := by
  obtain ⟨y, h1, h2⟩ := rk4_proj (unpackSvL (n := n) (K := K))
    (f := fun x => P.toCLQT.riccatiOdeF x (t0 + (k + 1) * dt)) (g := fun S => .ok (P.riccatiF (P.L * ULT) S))
    (fun x => ⟨_, clqr_riccati P hULT x _, congrArg Except.ok (congrArg Prod.fst (unpack_packSv _ _)).symm⟩) (-dt) (packSv st.S st.v)
  have e : rk4T P.toCLQT.riccatiOdeF (-dt) (packSv st.S st.v) (t0 + (k + 1) * dt) = .ok y := by
    rw [← h1]
    exact rk4T_const (fun x t => by rw [clqr_riccati P hULT, clqr_riccati P hULT]) _ _ _
  have h3 : rk4 (fun S => .ok (P.riccatiF (P.L * ULT) S)) (-dt) st.S = .ok (unpackSv y).1 := by
    have : (unpackSvL (packSv st.S st.v) : Matrix (Fin n) (Fin n) K) = st.S := congrArg Prod.fst (unpack_packSv _ _)
    rw [this] at h2
    exact h2
  have hU : solvePos (P.toCLQT.U (t0 + k * dt)) (P.toCLQT.L (t0 + k * dt))ᵀ = .ok ULT := hULT
  refine ⟨⟨symPart (unpackSv y).1, (unpackSv y).2, st.Kx_list ++ [ULT * symPart (unpackSv y).1],
    st.d_list ++ [ULT *ᵥ (unpackSv y).2], st.S_list ++ [symPart (unpackSv y).1], st.v_list ++ [(unpackSv y).2]⟩, ?_, ?_⟩
  · unfold CLQT.bwStep
    dsimp only
    rw [e]
    dsimp only [bind, Except.bind]
    rw [hU]
    rfl
  · unfold CLQR.bwRkStep regOf
    dsimp only
    rw [h3]
    rfl

theorem clqr_bwStep_zero (P : CLQR n m K) {ULT : Matrix (Fin m) (Fin n) K} (hULT : solvePos P.U P.Lᵀ = .ok ULT) (dt t0 : K)
    (st : RegState n m K) (k : ℕ) :
    ∃ st', P.bwRkStep ULT dt st = .ok st' ∧ P.toCLQT.bwStep dt t0 (bwOf st) k = .ok (bwOf st') := by
  obtain ⟨S, h1, h2⟩ := rk4_proj (packSvL (n := n) (K := K))
    (g := fun x => P.toCLQT.riccatiOdeF x (t0 + (k + 1) * dt)) (f := fun S => .ok (P.riccatiF (P.L * ULT) S))
    (fun S => ⟨_, rfl, by
      rw [clqr_riccati P hULT]
      show Except.ok (packSv (P.riccatiF (P.L * ULT) (unpackSv (packSv S 0)).1) _) = .ok (packSv _ 0)
      rw [show (packSvL S : Matrix (Fin n) (Fin (n + 1)) K) = packSv S 0 from rfl, unpack_packSv]
      simp⟩) (-dt) st.S
  have e : rk4T P.toCLQT.riccatiOdeF (-dt) (packSv st.S 0) (t0 + (k + 1) * dt) = .ok (packSv S 0) := by
    refine Eq.trans ?_ h2
    exact rk4T_const (fun x t => by rw [clqr_riccati P hULT, clqr_riccati P hULT]) _ _ _
  have hU : solvePos (P.toCLQT.U (t0 + k * dt)) (P.toCLQT.L (t0 + k * dt))ᵀ = .ok ULT := hULT
  refine ⟨⟨symPart S, st.Kx_list ++ [ULT * symPart S], st.S_list ++ [symPart S]⟩, ?_, ?_⟩
  · unfold CLQR.bwRkStep
    dsimp only
    rw [h1]
    rfl
  · unfold CLQT.bwStep bwOf
    dsimp only
    rw [e]
    dsimp only [bind, Except.bind]
    rw [hU, unpack_packSv]
    simp [pure, Except.pure, List.replicate_succ']

theorem clqr_termS (P : CLQR n m K) : P.toCLQT.HTᵀ * P.toCLQT.XT * P.toCLQT.HT = P.XT := by
  have h : (1 : Matrix (Fin n) (Fin n) K)ᵀ * P.XT * (1 : Matrix (Fin n) (Fin n) K) = P.XT := by
    rw [transpose_one, Matrix.one_mul, Matrix.mul_one]
  exact h

theorem clqr_termV (P : CLQR n m K) : (P.toCLQT.HTᵀ * P.toCLQT.XT) *ᵥ P.toCLQT.rT = 0 := by
  have h : ((1 : Matrix (Fin n) (Fin n) K)ᵀ * P.XT) *ᵥ (0 : Fin n → K) = 0 := mulVec_zero _
  exact h

theorem clqr_seq_bw (P : CLQR n m K) (ops : ExpOps n m K) {steps : ℕ} (hs : 0 < steps) (dt t0 : Option K)
    (S : Option (Matrix (Fin n) (Fin n) K)) (v : Option (Fin n → K)) :
    P.seqBackwardPass ops steps dt S .rk4 =
      (P.toCLQT.seqBackwardPass steps dt t0 S v).map fun r => (r.Kx_list, r.S_list) := by
  unfold CLQR.seqBackwardPass CLQT.seqBackwardPass
  dsimp only
  have e0 : S.getD (P.toCLQT.HTᵀ * P.toCLQT.XT * P.toCLQT.HT) = S.getD P.XT := congrArg S.getD (clqr_termS P)
  rw [e0]
  have e1 : P.toCLQT.dtSeq steps dt = P.dtSeq steps dt := rfl
  rw [e1]
  cases P.dtSeq steps dt with
  | error e => rfl
  | ok h =>
    dsimp only [bind, Except.bind]
    cases hU : solvePos P.U P.Lᵀ with
    | error e => dsimp only; rw [clqr_bwLoop_err P hU _ _ _ hs]; rfl
    | ok ULT =>
      dsimp only
      obtain ⟨st', h1, h2⟩ := foldlM_sim regOf (f := P.toCLQT.bwStep h (t0.getD 0)) (g := fun st (_ : ℕ) => P.bwRkStep ULT h st) (fun k _ st => clqr_bwStep P hU h (t0.getD 0) st k)
        (l := (List.range steps).reverse) ⟨S.getD P.XT, v.getD ((P.toCLQT.HTᵀ * P.toCLQT.XT) *ᵥ P.toCLQT.rT), [], [],
          [S.getD P.XT], [v.getD ((P.toCLQT.HTᵀ * P.toCLQT.XT) *ᵥ P.toCLQT.rT)]⟩
      rw [h1]
      have h2' : List.foldlM (fun st (_ : ℕ) => P.bwRkStep ULT h st)
        ({ S := S.getD P.XT, Kx_list := [], S_list := [S.getD P.XT] } : RegState n m K) (List.range steps).reverse =
          .ok (regOf st') := h2
      rw [h2']
      rfl

theorem regLoop_len (P : CLQR n m K) (ULT : Matrix (Fin m) (Fin n) K) (dt : K) (l : List ℕ) (st st' : RegState n m K)
    (h : l.foldlM (fun st (_ : ℕ) => P.bwRkStep ULT dt st) st = .ok st') :
    st'.Kx_list.length = st.Kx_list.length + l.length ∧ st'.S_list.length = st.S_list.length + l.length := by
  induction l generalizing st with
  | nil => cases h; exact ⟨rfl, rfl⟩
  | cons a l ih =>
    rw [List.foldlM_cons, bind_ok] at h
    obtain ⟨s1, h1, h2⟩ := h
    have := ih s1 h2
    unfold CLQR.bwRkStep at h1
    simp only [bind_ok, pure, Except.pure, Except.ok.injEq] at h1
    obtain ⟨S, -, rfl⟩ := h1
    obtain ⟨i1, i2⟩ := this
    simp only [List.length_append, List.length_singleton, List.length_cons, List.length_nil] at i1 i2 ⊢
    exact ⟨by omega, by omega⟩

theorem clqr_seq_bw_zero (P : CLQR n m K) (ops : ExpOps n m K) {steps : ℕ} (hs : 0 < steps) (dt t0 : Option K)
    (S : Option (Matrix (Fin n) (Fin n) K)) :
    P.toCLQT.seqBackwardPass steps dt t0 S none = (P.seqBackwardPass ops steps dt S .rk4).map fun r =>
      ⟨r.1, List.replicate steps 0, r.2, List.replicate (steps + 1) 0⟩ := by
  unfold CLQR.seqBackwardPass CLQT.seqBackwardPass
  dsimp only
  have e0 : S.getD (P.toCLQT.HTᵀ * P.toCLQT.XT * P.toCLQT.HT) = S.getD P.XT := congrArg S.getD (clqr_termS P)
  have e2 : (none : Option (Fin n → K)).getD ((P.toCLQT.HTᵀ * P.toCLQT.XT) *ᵥ P.toCLQT.rT) = 0 := clqr_termV P
  rw [e0, e2]
  have e1 : P.toCLQT.dtSeq steps dt = P.dtSeq steps dt := rfl
  rw [e1]
  cases P.dtSeq steps dt with
  | error e => rfl
  | ok h =>
    dsimp only [bind, Except.bind]
    cases hU : solvePos P.U P.Lᵀ with
    | error e => dsimp only; rw [clqr_bwLoop_err P hU _ _ _ hs]; rfl
    | ok ULT =>
      dsimp only
      obtain ⟨st', h1, h2⟩ := foldlM_sim bwOf (g := P.toCLQT.bwStep h (t0.getD 0)) (f := fun st (_ : ℕ) => P.bwRkStep ULT h st) (fun k _ st => clqr_bwStep_zero P hU h (t0.getD 0) st k)
        (l := (List.range steps).reverse) ⟨S.getD P.XT, [], [S.getD P.XT]⟩
      rw [h1]
      have h2' : List.foldlM (P.toCLQT.bwStep h (t0.getD 0))
        ({ S := S.getD P.XT, v := 0, Kx_list := [], d_list := [], S_list := [S.getD P.XT], v_list := [0] } : BwState n m K)
          (List.range steps).reverse = .ok (bwOf st') := h2
      rw [h2']
      have hl := regLoop_len P ULT h _ _ _ h1
      simp only [List.length_nil, List.length_reverse, List.length_range, zero_add, List.length_singleton] at hl
      simp only [bwOf, Except.map, pure, Except.pure, List.reverse_replicate, hl.1, hl.2, add_comm 1 steps]

/-! ### Block elements -/

theorem clqr_bwBw (P : CLQR n m K) (x : Matrix (Fin n) (Fin (3 * n + 2)) K) (t : K) :
    P.toCLQT.bwpassBwOdeF x t = P.bwpassBwOdeF x := by
  have e : P.toCLQT.bwpassBwOdeF x t = (solvePos P.U P.Lᵀ).bind fun ULT => .ok (packABCEJ
      ⟨(unpackABCEJ x).A * (P.L * ULT) * (unpackABCEJ x).J - (unpackABCEJ x).A * P.F,
       -((unpackABCEJ x).A * (P.L * ULT)) *ᵥ (unpackABCEJ x).eta - (unpackABCEJ x).A *ᵥ (0 : Fin n → K),
       -(unpackABCEJ x).A * (P.L * ULT) * (unpackABCEJ x).Aᵀ,
       -((1 : Matrix (Fin n) (Fin n) K)ᵀ * P.X) *ᵥ (0 : Fin n → K) + ((unpackABCEJ x).J * (P.L * ULT)) *ᵥ (unpackABCEJ x).eta -
         P.Fᵀ *ᵥ (unpackABCEJ x).eta + (unpackABCEJ x).J *ᵥ (0 : Fin n → K),
       -(1 : Matrix (Fin n) (Fin n) K)ᵀ * P.X * 1 + (unpackABCEJ x).J * (P.L * ULT) * (unpackABCEJ x).J -
         (unpackABCEJ x).J * P.F - P.Fᵀ * (unpackABCEJ x).J⟩) := rfl
  have e' : P.bwpassBwOdeF x = (solvePos P.U P.Lᵀ).bind fun ULT => .ok (packABCEJ
      ⟨(unpackABCEJ x).A * (P.L * ULT) * (unpackABCEJ x).J - (unpackABCEJ x).A * P.F,
       (-(unpackABCEJ x).A * (P.L * ULT)) *ᵥ (unpackABCEJ x).eta,
       -(unpackABCEJ x).A * (P.L * ULT) * (unpackABCEJ x).Aᵀ,
       ((unpackABCEJ x).J * (P.L * ULT)) *ᵥ (unpackABCEJ x).eta - P.Fᵀ *ᵥ (unpackABCEJ x).eta,
       -(unpackABCEJ x).J * P.F + (unpackABCEJ x).J * (P.L * ULT) * (unpackABCEJ x).J - P.Fᵀ * (unpackABCEJ x).J - P.X⟩) := rfl
  rw [e, e']
  congr 1
  funext ULT
  congr 3
  · rw [mulVec_zero, sub_zero, Matrix.neg_mul]
  · rw [mulVec_zero, mulVec_zero, zero_add, add_zero]
  · rw [transpose_one, Matrix.mul_one, Matrix.neg_mul, Matrix.one_mul, Matrix.neg_mul]
    abel

theorem clqr_bwFw (P : CLQR n m K) (x : Matrix (Fin n) (Fin (3 * n + 2)) K) (t : K) :
    P.toCLQT.bwpassFwOdeF x t = P.bwpassFwOdeF x := by
  have e : P.toCLQT.bwpassFwOdeF x t = (solvePos P.U P.Lᵀ).bind fun ULT => .ok (packABCEJ
      ⟨P.F * (unpackABCEJ x).A - (unpackABCEJ x).C * (1 : Matrix (Fin n) (Fin n) K)ᵀ * P.X * 1 * (unpackABCEJ x).A,
       P.F *ᵥ (unpackABCEJ x).b + ((unpackABCEJ x).C * (1 : Matrix (Fin n) (Fin n) K)ᵀ * P.X) *ᵥ (0 : Fin n → K) -
         ((unpackABCEJ x).C * (1 : Matrix (Fin n) (Fin n) K)ᵀ * P.X * 1) *ᵥ (unpackABCEJ x).b + 0,
       P.F * (unpackABCEJ x).C - (unpackABCEJ x).C * (1 : Matrix (Fin n) (Fin n) K)ᵀ * P.X * 1 * (unpackABCEJ x).C +
         (unpackABCEJ x).C * P.Fᵀ + P.L * ULT,
       ((unpackABCEJ x).Aᵀ * (1 : Matrix (Fin n) (Fin n) K)ᵀ * P.X) *ᵥ (0 : Fin n → K) -
         ((unpackABCEJ x).Aᵀ * (1 : Matrix (Fin n) (Fin n) K)ᵀ * P.X * 1) *ᵥ (unpackABCEJ x).b,
       (unpackABCEJ x).Aᵀ * (1 : Matrix (Fin n) (Fin n) K)ᵀ * P.X * 1 * (unpackABCEJ x).A⟩) := rfl
  have e' : P.bwpassFwOdeF x = (solvePos P.U P.Lᵀ).bind fun ULT => .ok (packABCEJ
      ⟨P.F * (unpackABCEJ x).A - (unpackABCEJ x).C * P.X * (unpackABCEJ x).A,
       P.F *ᵥ (unpackABCEJ x).b - ((unpackABCEJ x).C * P.X) *ᵥ (unpackABCEJ x).b,
       P.F * (unpackABCEJ x).C - (unpackABCEJ x).C * P.X * (unpackABCEJ x).C + (unpackABCEJ x).C * P.Fᵀ + P.L * ULT,
       (-(unpackABCEJ x).Aᵀ * P.X) *ᵥ (unpackABCEJ x).b,
       (unpackABCEJ x).Aᵀ * P.X * (unpackABCEJ x).A⟩) := rfl
  rw [e, e']
  congr 1
  funext ULT
  simp only [transpose_one, Matrix.mul_one, mulVec_zero, add_zero, zero_sub, Matrix.neg_mul, neg_mulVec]

theorem clqr_block (P : CLQR n m K) (fw : Bool) (steps : ℕ) (dt t0 : K) (k : ℕ) :
    P.toCLQT.blockElem fw steps dt t0 k =
      if fw then (List.range steps).foldlM (fun e (_ : ℕ) => CLQR.elemStep P.bwpassFwOdeF dt e) (⟨1, 0, 0, 0, 0⟩ : Elem n K)
      else (List.range steps).reverse.foldlM (fun e (_ : ℕ) => CLQR.elemStep P.bwpassBwOdeF (-dt) e) (⟨1, 0, 0, 0, 0⟩ : Elem n K) := by
  unfold CLQT.blockElem
  dsimp only
  congr 1
  · refine foldlM_congr' (fun i _ e => ?_) _
    unfold CLQT.elemStep CLQR.elemStep
    dsimp only
    rw [rk4T_const (clqr_bwFw P)]
  · refine foldlM_congr' (fun i _ e => ?_) _
    unfold CLQT.elemStep CLQR.elemStep
    dsimp only
    rw [rk4T_const (clqr_bwBw P)]

theorem mapM_const {α β : Type} (f : Py β) {l : List α} (hl : l ≠ []) : l.mapM (fun _ => f) = f.map (List.replicate l.length) := by
  cases f with
  | error e =>
    obtain ⟨a, l, rfl⟩ := List.exists_cons_of_ne_nil hl
    rw [List.mapM_cons]; rfl
  | ok b =>
    refine mapM_ok_iff.2 ?_
    · clear hl
      induction l with
      | nil => exact .nil
      | cons a l ih => exact .cons rfl ih

theorem map_bind_eq {α β γ δ : Type} (M : Py α) {g : α → β} {F : β → γ} {G : α → δ} {p : δ → γ} (h : ∀ a, F (g a) = p (G a)) :
    Except.bind (M.map g) (fun b => (.ok (F b) : Py γ)) = (Except.bind M (fun a => (.ok (G a) : Py δ))).map p := by
  cases M with
  | error e => rfl
  | ok a => exact congrArg Except.ok (h a)

theorem dtPar_ok (P : CLQR n m K) {blocks steps : ℕ} {dt : K} (h : P.dtPar blocks steps = .ok dt) : blocks ≠ 0 ∧ steps ≠ 0 := by
  unfold CLQR.dtPar pyDiv at h
  constructor
  · rintro rfl
    simp only [Nat.cast_zero, if_true] at h
    split_ifs at h <;> cases h
  · rintro rfl
    simp [bind, Except.bind] at h

theorem clqr_blocks (P : CLQR n m K) (fw : Bool) (blocks steps : ℕ) (t0 : K) :
    (do let dt ← P.dtPar blocks steps; (List.range blocks).mapM (P.toCLQT.blockElem fw steps dt t0)) =
      (P.blockElem fw blocks steps .rk4).map (List.replicate blocks) := by
  unfold CLQR.blockElem
  dsimp only
  cases h : P.dtPar blocks steps with
  | error e => rfl
  | ok dt =>
    have hb := (dtPar_ok P h).1
    dsimp only [bind, Except.bind]
    have e : P.toCLQT.blockElem fw steps dt t0 = fun _ => (if fw then
      (List.range steps).foldlM (fun e (_ : ℕ) => CLQR.elemStep P.bwpassFwOdeF dt e) (⟨1, 0, 0, 0, 0⟩ : Elem n K)
      else (List.range steps).reverse.foldlM (fun e (_ : ℕ) => CLQR.elemStep P.bwpassBwOdeF (-dt) e) (⟨1, 0, 0, 0, 0⟩ : Elem n K)) :=
      funext fun k => clqr_block P fw steps dt t0 k
    rw [e, mapM_const _ (by simpa using hb), List.length_range]

theorem clqr_par_init (P : CLQR n m K) (blocks steps : ℕ) (t0 : Option K) (fw : Bool) :
    P.parBackwardInit blocks steps .rk4 fw = P.toCLQT.parBackwardInit blocks steps none t0 fw := by
  have e : P.toCLQT.parBackwardInit blocks steps none t0 fw =
      ((do let dt ← P.dtPar blocks steps; (List.range blocks).mapM (P.toCLQT.blockElem fw steps dt (t0.getD 0))) : Py _).bind
        fun es => .ok (es ++ [⟨0, 0, 0, ((1 : Matrix (Fin n) (Fin n) K)ᵀ * P.XT) *ᵥ (0 : Fin n → K),
          (1 : Matrix (Fin n) (Fin n) K)ᵀ * P.XT * 1⟩]) := by
    unfold CLQT.parBackwardInit
    have e1 : P.toCLQT.dtPar blocks steps none = P.dtPar blocks steps := rfl
    dsimp only
    rw [e1]
    cases P.dtPar blocks steps <;> rfl
  rw [e, clqr_blocks]
  unfold CLQR.parBackwardInit
  rw [transpose_one, Matrix.one_mul, Matrix.mul_one, mulVec_zero]
  cases P.blockElem fw blocks steps .rk4 <;> rfl

theorem clqr_seq_len (P : CLQT n m K) {steps : ℕ} {dt t0 S v} {r : BwResult n m K}
    (h : P.seqBackwardPass steps dt t0 S v = .ok r) :
    r.Kx_list.length = steps ∧ r.d_list.length = steps ∧ r.S_list.length = steps + 1 ∧ r.v_list.length = steps + 1 := by
  unfold CLQT.seqBackwardPass at h
  simp only [bind_ok, pure, Except.pure, Except.ok.injEq] at h
  obtain ⟨dt', -, st, hst, rfl⟩ := h
  obtain ⟨σ, κ, -, -, rfl⟩ := CLQT.bwLoop_ok.1 hst
  simp

theorem clqr_par_extract (P : CLQR n m K) (ops : ExpOps n m K) (elems : List (Elem n K)) (steps : ℕ) (t0 : Option K) :
    P.parBackwardExtract ops elems steps .rk4 =
      (P.toCLQT.parBackwardExtract elems steps none t0).map fun r => (r.Kx_list, r.S_list) := by
  unfold CLQR.parBackwardExtract CLQT.parBackwardExtract
  have e1 : P.toCLQT.dtPar (elems.length - 1) steps none = P.dtPar (elems.length - 1) steps := rfl
  dsimp only
  rw [e1]
  cases hd : P.dtPar (elems.length - 1) steps with
  | error e => rfl
  | ok dt =>
    have hs := Nat.pos_of_ne_zero (dtPar_ok P hd).2
    dsimp only [bind, Except.bind]
    cases pyGet elems 0 with
    | error e => rfl
    | ok e0 =>
      dsimp only
      have h : (List.range (elems.length - 1)).mapM (fun (k : ℕ) => do
          let e ← pyGet elems (k + 1)
          let b ← P.seqBackwardPass ops steps (some dt) (some e.J) .rk4
          (List.range b.1.length).mapM (fun (i : ℕ) => do
            let S ← pyGet b.2 (i + 1)
            let Kx ← pyGet b.1 i
            return (Kx, S))) =
          ((List.range (elems.length - 1)).mapM (fun (k : ℕ) => do
            let t1 := t0.getD 0 + k * dt * steps
            let e ← pyGet elems (k + 1)
            let b ← P.toCLQT.seqBackwardPass steps (some dt) (some t1) (some e.J) (some e.eta)
            (List.range b.Kx_list.length).mapM (fun (i : ℕ) => do
              let S ← pyGet b.S_list (i + 1)
              let v ← pyGet b.v_list (i + 1)
              let Kx ← pyGet b.Kx_list i
              let d ← pyGet b.d_list i
              return (Kx, d, S, v)))).map (List.map (List.map
              fun q : Matrix (Fin m) (Fin n) K × (Fin m → K) × Matrix (Fin n) (Fin n) K × (Fin n → K) => (q.1, q.2.2.1))) := by
        rw [← mapM_map']
        refine mapM_congr' fun k _ => ?_
        cases pyGet elems (k + 1) with
        | error e => rfl
        | ok e =>
          dsimp only [bind, Except.bind]
          rw [clqr_seq_bw P ops hs (some dt) (some (t0.getD 0 + k * dt * steps)) (some e.J) (some e.eta)]
          cases hb : P.toCLQT.seqBackwardPass steps (some dt) (some (t0.getD 0 + k * dt * steps)) (some e.J) (some e.eta) with
          | error e => rfl
          | ok b =>
            obtain ⟨l1, l2, l3, l4⟩ := clqr_seq_len _ hb
            dsimp only [Except.map]
            have hm := mapM_map' (fun i => do
              let S ← pyGet b.S_list (i + 1)
              let v ← pyGet b.v_list (i + 1)
              let Kx ← pyGet b.Kx_list i
              let d ← pyGet b.d_list i
              return (Kx, d, S, v)) (fun q : Matrix (Fin m) (Fin n) K × (Fin m → K) × Matrix (Fin n) (Fin n) K × (Fin n → K) =>
                (q.1, q.2.2.1)) (List.range b.Kx_list.length)
            refine Eq.trans ?_ hm
            refine mapM_congr' fun i hi => ?_
            have hi := List.mem_range.1 hi
            rw [l1] at hi
            rw [pyGet_lt (a := b.S_list) (i := i + 1) (by omega), pyGet_lt (a := b.v_list) (i := i + 1) (by omega),
              pyGet_lt (a := b.Kx_list) (i := i) (by omega), pyGet_lt (a := b.d_list) (i := i) (by omega)]
            rfl
      dsimp only [bind, Except.bind] at h
      rw [h]
      refine map_bind_eq _ fun rs => ?_
      dsimp only
      rw [← List.map_flatten, List.map_map, List.map_map]
      rfl

theorem clqr_par_bw (P : CLQR n m K) (ops : ExpOps n m K) (blocks steps : ℕ) (t0 : Option K) :
    P.parBackwardPass ops blocks steps .rk4 .rk4 =
      (P.toCLQT.parBackwardPass blocks steps none t0 false).map fun r => (r.Kx_list, r.S_list) := by
  unfold CLQR.parBackwardPass CLQT.parBackwardPass
  dsimp only
  rw [clqr_par_init P blocks steps (some (t0.getD 0)) false]
  cases hd : P.toCLQT.dtPar blocks steps none with
  | error e =>
    have : P.toCLQT.parBackwardInit blocks steps none (some (t0.getD 0)) false = .error e := by
      unfold CLQT.parBackwardInit
      dsimp only
      rw [hd]
      rfl
    rw [this]
    rfl
  | ok dt =>
    have h1 : P.toCLQT.parBackwardInit blocks steps none (some (t0.getD 0)) false =
        P.toCLQT.parBackwardInit blocks steps (some dt) (some (t0.getD 0)) false := by
      unfold CLQT.parBackwardInit
      dsimp only
      rw [hd]
      rfl
    rw [h1]
    dsimp only [bind, Except.bind]
    cases hi : P.toCLQT.parBackwardInit blocks steps (some dt) (some (t0.getD 0)) false with
    | error e => rfl
    | ok elems =>
      dsimp only
      cases hsc : scanVals combineABCEJ elems true with
      | error e => rfl
      | ok r =>
        dsimp only
        have hl : r.length = blocks + 1 := by
          rw [(scanVals_suffix hsc).1]
          unfold CLQT.parBackwardInit at hi
          simp only [bind_ok, pure, Except.pure, Except.ok.injEq] at hi
          obtain ⟨_, -, es, he, rfl⟩ := hi
          rw [List.length_append, (mapM_range_ok.1 he).1]
          rfl
        rw [clqr_par_extract P ops r steps (some (t0.getD 0))]
        congr 1
        unfold CLQT.parBackwardExtract
        dsimp only
        rw [hl, Nat.add_sub_cancel, hd]
        rfl

/-! ### Forward passes -/

theorem pyGet_bound {β : Type} {l : List β} {i : ℕ} {b : β} (h : pyGet l i = .ok b) : i < l.length := by
  rw [pyGet_ok] at h
  exact (List.getElem?_eq_some_iff.1 h).1

theorem clqr_seq_fw (P : CLQR n m K) (ops : ExpOps n m K) (x0 : Fin n → K) (Ks : List (Matrix (Fin m) (Fin n) K))
    (dt t0 : Option K) (zoh : Bool) :
    P.seqForwardPass ops x0 Ks dt .rk4 zoh =
      P.toCLQT.seqForwardPass x0 Ks (List.replicate Ks.length 0) dt t0 zoh := by
  unfold CLQR.seqForwardPass CLQT.seqForwardPass
  dsimp only
  have e1 : P.toCLQT.dtSeq Ks.length dt = P.dtSeq Ks.length dt := rfl
  rw [e1]
  congr 1
  funext h
  congr 1
  refine foldlM_congr' (fun k hk st => ?_) _
  have hk := List.mem_range.1 hk
  unfold CLQR.fwRkStep CLQT.fwStep
  dsimp only
  rw [pyGet_lt hk, pyGet_replicate hk]
  dsimp only [bind, Except.bind]
  rw [add_zero]
  have e : ∀ x t, P.toCLQT.fwOdeF zoh Ks[k] 0 (-Ks[k] *ᵥ st.2.2) x t = .ok (P.fwF zoh Ks[k] (-Ks[k] *ᵥ st.2.2) x) := by
    intro x t
    unfold CLQT.fwOdeF CLQR.fwF
    split_ifs
    · show Except.ok (P.F *ᵥ x + P.L *ᵥ (-Ks[k] *ᵥ st.2.2) + 0) = _
      rw [add_zero]
    · show Except.ok (P.F *ᵥ x + P.L *ᵥ (-Ks[k] *ᵥ x + 0) + 0) = _
      rw [add_zero, add_zero, mulVec_mulVec, Matrix.mul_neg, neg_mulVec, sub_mulVec, sub_eq_add_neg]
  rw [rk4T_const e]

theorem clqr_psiStep (Ks : List (Matrix (Fin m) (Fin n) K)) {f : Matrix (Fin n) (Fin (n + 1)) K → K →
      (Matrix (Fin m) (Fin n) K × (Fin m → K)) → Py (Matrix (Fin n) (Fin (n + 1)) K)}
    {g : Matrix (Fin n) (Fin (n + 1)) K → Matrix (Fin m) (Fin n) K → Py (Matrix (Fin n) (Fin (n + 1)) K)}
    (h : ∀ x t Kx, f x t (Kx, 0) = g x Kx) (dt t : K) (j : ℕ) (e : Matrix (Fin n) (Fin n) K × (Fin n → K)) :
    CLQT.psiStep f Ks (List.replicate Ks.length 0) dt t j e = CLQR.psiStep g Ks dt j e := by
  unfold CLQT.psiStep CLQR.psiStep
  dsimp only
  cases hk : pyGet Ks j with
  | error e => rfl
  | ok Kx =>
    dsimp only [bind, Except.bind]
    rw [pyGet_replicate (pyGet_bound hk)]
    dsimp only
    rw [rk4TP_const (fun x t => h x t Kx)]

theorem clqr_psiElem (P : CLQR n m K) (fw : Bool) (Ks : List (Matrix (Fin m) (Fin n) K)) (steps : ℕ) (dt t0 : K) (k : ℕ) :
    P.toCLQT.psiElem fw Ks (List.replicate Ks.length 0) steps dt t0 k = P.psiElem fw Ks steps dt .rk4 k := by
  unfold CLQT.psiElem CLQR.psiElem
  dsimp only
  have h1 : ∀ x t Kx, P.toCLQT.fwpassFwOdeF x t (Kx, 0) = P.fwpassFwOdeF x Kx := by
    intro x t Kx
    show Except.ok (packPsiphi ((P.F - P.L * Kx) * (unpackPsiphi x).1)
      ((P.F - P.L * Kx) *ᵥ (unpackPsiphi x).2 + ((0 : Fin n → K) + P.L *ᵥ (0 : Fin m → K)))) = _
    rw [mulVec_zero, add_zero, add_zero]
    rfl
  have h2 : ∀ x t Kx, P.toCLQT.fwpassBwOdeF x t (Kx, 0) = P.fwpassBwOdeF x Kx := by
    intro x t Kx
    show Except.ok (packPsiphi (-(unpackPsiphi x).1 * (P.F - P.L * Kx))
      (-(unpackPsiphi x).1 *ᵥ ((0 : Fin n → K) + P.L *ᵥ (0 : Fin m → K)))) = _
    rw [mulVec_zero, add_zero, mulVec_zero]
    rfl
  congr 1
  · exact foldlM_congr' (fun i _ e => clqr_psiStep Ks h1 _ _ _ _) _
  · exact foldlM_congr' (fun i _ e => clqr_psiStep Ks h2 _ _ _ _) _

theorem clqr_par_fwInit (P : CLQR n m K) (x0 : Fin n → K) (Ks : List (Matrix (Fin m) (Fin n) K)) (blocks steps : ℕ)
    (t0 : Option K) (fw : Bool) (hl : blocks * steps = Ks.length) :
    P.parForwardInit x0 Ks blocks steps .rk4 fw =
      P.toCLQT.parForwardInit x0 Ks (List.replicate Ks.length 0) blocks steps none t0 fw := by
  unfold CLQR.parForwardInit CLQT.parForwardInit
  dsimp only
  rw [if_neg (by simpa using hl)]
  have e1 : P.toCLQT.dtPar blocks steps none = P.dtPar blocks steps := rfl
  rw [e1]
  cases P.dtPar blocks steps with
  | error e => rfl
  | ok dt =>
    dsimp only [bind, Except.bind, pure, Except.pure]
    rw [if_neg (by simpa using hl)]
    rw [mapM_congr' fun k _ => clqr_psiElem P fw Ks steps dt (t0.getD 0) k]

theorem pySlice_replicate {α β : Type} (l : List α) (c : β) (a b : ℕ) :
    pySlice (List.replicate l.length c) a b = List.replicate (pySlice l a b).length c := by
  unfold pySlice
  simp [List.drop_replicate, List.take_replicate]

theorem clqr_par_fwExtract (P : CLQR n m K) (ops : ExpOps n m K) (Ks : List (Matrix (Fin m) (Fin n) K))
    (elems : List (Matrix (Fin n) (Fin n) K × (Fin n → K))) (steps : ℕ) (t0 : Option K) (zoh : Bool) :
    P.parForwardExtract ops Ks elems steps .rk4 zoh =
      P.toCLQT.parForwardExtract Ks (List.replicate Ks.length 0) elems steps none t0 zoh := by
  unfold CLQR.parForwardExtract CLQT.parForwardExtract
  dsimp only
  have e1 : P.toCLQT.dtPar (elems.length - 1) steps none = P.dtPar (elems.length - 1) steps := rfl
  rw [e1]
  have e2 : ∀ dt : K, (fun k : ℕ => (do
      let e ← pyGet elems k
      let b ← P.seqForwardPass ops e.2 (pySlice Ks (k * steps) ((k + 1) * steps)) (some dt) .rk4 zoh
      (List.range b.1.length).mapM (fun (i : ℕ) => do
        let u ← pyGet b.1 i
        let x ← pyGet b.2 i
        return (u, x)) : Py _)) = fun k : ℕ => (do
      let e ← pyGet elems k
      let b ← P.toCLQT.seqForwardPass e.2 (pySlice Ks (k * steps) ((k + 1) * steps))
        (pySlice (List.replicate Ks.length 0) (k * steps) ((k + 1) * steps)) (some dt) (some (t0.getD 0 + k * steps * dt)) zoh
      (List.range b.1.length).mapM (fun (i : ℕ) => do
        let u ← pyGet b.1 i
        let x ← pyGet b.2 i
        return (u, x))) := by
    intro dt
    funext k
    congr 1
    funext e
    rw [pySlice_replicate, ← clqr_seq_fw P ops]
  simp only [e2]

theorem clqr_par_fw (P : CLQR n m K) (ops : ExpOps n m K) (x0 : Fin n → K) (Ks : List (Matrix (Fin m) (Fin n) K))
    (blocks steps : ℕ) (t0 : Option K) (zoh : Bool) (hl : blocks * steps = Ks.length) :
    P.parForwardPass ops x0 Ks blocks steps .rk4 .rk4 zoh =
      P.toCLQT.parForwardPass x0 Ks (List.replicate Ks.length 0) blocks steps none t0 true zoh := by
  unfold CLQR.parForwardPass CLQT.parForwardPass
  dsimp only
  rw [clqr_par_fwInit P x0 Ks blocks steps (some (t0.getD 0)) true hl]
  cases hd : P.toCLQT.dtPar blocks steps none with
  | error e =>
    have : P.toCLQT.parForwardInit x0 Ks (List.replicate Ks.length 0) blocks steps none (some (t0.getD 0)) true = .error e := by
      unfold CLQT.parForwardInit
      dsimp only
      rw [hd]
      rfl
    rw [this]
    rfl
  | ok dt =>
    have h1 : P.toCLQT.parForwardInit x0 Ks (List.replicate Ks.length 0) blocks steps none (some (t0.getD 0)) true =
        P.toCLQT.parForwardInit x0 Ks (List.replicate Ks.length 0) blocks steps (some dt) (some (t0.getD 0)) true := by
      unfold CLQT.parForwardInit
      dsimp only
      rw [hd]
      rfl
    rw [h1]
    dsimp only [bind, Except.bind]
    cases hi : P.toCLQT.parForwardInit x0 Ks (List.replicate Ks.length 0) blocks steps (some dt) (some (t0.getD 0)) true with
    | error e => rfl
    | ok elems =>
      dsimp only
      cases hsc : scanVals (fun x y => .ok (combineFC x y)) elems with
      | error e => rfl
      | ok r =>
        dsimp only
        have hr : r.length = blocks + 1 := by
          rw [(scanVals_prefix hsc).1]
          unfold CLQT.parForwardInit at hi
          simp only [hl, ne_eq, not_true_eq_false, if_false, bind_ok, pure, Except.pure, Except.ok.injEq] at hi
          obtain ⟨_, -, es, he, rfl⟩ := hi
          rw [List.length_cons, (mapM_range_ok.1 he).1]
        rw [clqr_par_fwExtract P ops Ks r steps (some (t0.getD 0))]
        unfold CLQT.parForwardExtract
        dsimp only
        rw [hr, Nat.add_sub_cancel, hd]
        rfl

/-! ### Forward-backward passes -/

theorem clqr_fwdbwdF (P : CLQR n m K) (x : Matrix (Fin n) (Fin (2 * n + 1)) K) (t : K) :
    P.toCLQT.fwdbwdOdeF x t = P.fwdbwdOdeF x := by
  have e : P.toCLQT.fwdbwdOdeF x t = (solvePos P.U P.Lᵀ).bind fun ULT => .ok (packABC
      (P.F * (unpackABC x).1 - (unpackABC x).2.2 * (1 : Matrix (Fin n) (Fin n) K)ᵀ * P.X * 1 * (unpackABC x).1)
      (P.F *ᵥ (unpackABC x).2.1 + ((unpackABC x).2.2 * (1 : Matrix (Fin n) (Fin n) K)ᵀ * P.X) *ᵥ (0 : Fin n → K) -
        ((unpackABC x).2.2 * (1 : Matrix (Fin n) (Fin n) K)ᵀ * P.X * 1) *ᵥ (unpackABC x).2.1 + 0)
      (P.F * (unpackABC x).2.2 - (unpackABC x).2.2 * (1 : Matrix (Fin n) (Fin n) K)ᵀ * P.X * 1 * (unpackABC x).2.2 +
        (unpackABC x).2.2 * P.Fᵀ + P.L * ULT)) := rfl
  have e' : P.fwdbwdOdeF x = (solvePos P.U P.Lᵀ).bind fun ULT => .ok (packABC
      (P.F * (unpackABC x).1 - (unpackABC x).2.2 * P.X * (unpackABC x).1)
      (P.F *ᵥ (unpackABC x).2.1 - ((unpackABC x).2.2 * P.X) *ᵥ (unpackABC x).2.1)
      (P.F * (unpackABC x).2.2 - (unpackABC x).2.2 * P.X * (unpackABC x).2.2 + (unpackABC x).2.2 * P.Fᵀ + P.L * ULT)) := rfl
  rw [e, e']
  congr 1
  funext ULT
  simp only [transpose_one, Matrix.mul_one, mulVec_zero, add_zero]

theorem clqr_seq_fb (P : CLQR n m K) (x0 : Fin n → K) (steps : ℕ) (dt t0 : Option K) (A : Option (Matrix (Fin n) (Fin n) K))
    (b : Option (Fin n → K)) (C : Option (Matrix (Fin n) (Fin n) K)) :
    P.seqFwdBwdPass x0 steps dt A b C .rk4 = P.toCLQT.seqFwdBwdPass x0 steps dt t0 A b C := by
  unfold CLQR.seqFwdBwdPass CLQT.seqFwdBwdPass
  dsimp only
  have e1 : P.toCLQT.dtSeq steps dt = P.dtSeq steps dt := rfl
  rw [e1]
  congr 1
  funext h
  congr 1
  refine foldlM_congr' (fun k _ st => ?_) _
  unfold CLQR.abcStep CLQT.abcStep
  dsimp only
  rw [rk4T_const (clqr_fwdbwdF P)]

theorem clqr_combine (Ks : List (Matrix (Fin m) (Fin n) K)) (Ss : List (Matrix (Fin n) (Fin n) K)) (fw : AbcResult n K) :
    CLQR.combineForwardBackward Ks Ss fw =
      CLQT.combineForwardBackward ⟨Ks, List.replicate Ks.length 0, Ss, List.replicate Ss.length 0⟩ fw := by
  unfold CLQR.combineForwardBackward CLQT.combineForwardBackward
  dsimp only
  congr 1
  refine mapM_congr' fun k hk => ?_
  have hk := List.mem_range.1 hk
  rw [pyGet_lt hk, pyGet_replicate hk]
  dsimp only [bind, Except.bind]
  cases pyGet fw.A_list k with
  | error e => rfl
  | ok A =>
    cases pyGet fw.b_list k with
    | error e => rfl
    | ok b =>
      cases pyGet fw.C_list k with
      | error e => rfl
      | ok C =>
        dsimp only
        rw [mulVec_zero, add_zero]
        cases solveV (1 + C * Ss[k]) b with
        | error e => rfl
        | ok x =>
          dsimp only
          by_cases h : k < Ks.length
          · rw [if_pos h, if_pos h, pyGet_lt h, pyGet_replicate h]
            dsimp only
            rw [add_zero]
          · rw [if_neg h, if_neg h]

theorem clqr_par_fbInit (P : CLQR n m K) (x0 : Fin n → K) (blocks steps : ℕ) (t0 : Option K) (fw : Bool) :
    P.parFwdBwdInit x0 blocks steps .rk4 fw = P.toCLQT.parFwdBwdInit x0 blocks steps none t0 fw := by
  have e : P.toCLQT.parFwdBwdInit x0 blocks steps none t0 fw =
      ((do let dt ← P.dtPar blocks steps; (List.range blocks).mapM (P.toCLQT.blockElem fw steps dt (t0.getD 0))) : Py _).bind
        fun es => .ok (⟨0, x0, 0, 0, 0⟩ :: es) := by
    unfold CLQT.parFwdBwdInit
    have e1 : P.toCLQT.dtPar blocks steps none = P.dtPar blocks steps := rfl
    dsimp only
    rw [e1]
    cases P.dtPar blocks steps <;> rfl
  rw [e, clqr_blocks]
  unfold CLQR.parFwdBwdInit
  cases P.blockElem fw blocks steps .rk4 <;> rfl

theorem clqr_par_fbExtract (P : CLQR n m K) (Ks : List (Matrix (Fin m) (Fin n) K)) (Ss : List (Matrix (Fin n) (Fin n) K))
    (elems : List (Elem n K)) (steps : ℕ) (t0 : Option K) :
    P.parFwdBwdExtract Ks Ss elems steps .rk4 =
      P.toCLQT.parFwdBwdExtract ⟨Ks, List.replicate Ks.length 0, Ss, List.replicate Ss.length 0⟩ elems steps none t0 := by
  unfold CLQR.parFwdBwdExtract CLQT.parFwdBwdExtract
  dsimp only
  have e1 : P.toCLQT.dtPar (elems.length - 1) steps none = P.dtPar (elems.length - 1) steps := rfl
  rw [e1]
  simp only [pySlice_replicate, ← clqr_combine, ← clqr_seq_fb]
  rfl

theorem clqr_par_fb (P : CLQR n m K) (x0 : Fin n → K) (Ks : List (Matrix (Fin m) (Fin n) K))
    (Ss : List (Matrix (Fin n) (Fin n) K)) (blocks steps : ℕ) (t0 : Option K) :
    P.parFwdBwdPass x0 Ks Ss blocks steps .rk4 .rk4 =
      P.toCLQT.parFwdBwdPass x0 ⟨Ks, List.replicate Ks.length 0, Ss, List.replicate Ss.length 0⟩ blocks steps none t0 true := by
  unfold CLQR.parFwdBwdPass CLQT.parFwdBwdPass
  dsimp only
  rw [clqr_par_fbInit P x0 blocks steps (some (t0.getD 0)) true]
  cases hd : P.toCLQT.dtPar blocks steps none with
  | error e =>
    have : P.toCLQT.parFwdBwdInit x0 blocks steps none (some (t0.getD 0)) true = .error e := by
      unfold CLQT.parFwdBwdInit
      dsimp only
      rw [hd]
      rfl
    rw [this]
    rfl
  | ok dt =>
    have h1 : P.toCLQT.parFwdBwdInit x0 blocks steps none (some (t0.getD 0)) true =
        P.toCLQT.parFwdBwdInit x0 blocks steps (some dt) (some (t0.getD 0)) true := by
      unfold CLQT.parFwdBwdInit
      dsimp only
      rw [hd]
      rfl
    rw [h1]
    dsimp only [bind, Except.bind]
    cases hi : P.toCLQT.parFwdBwdInit x0 blocks steps (some dt) (some (t0.getD 0)) true with
    | error e => rfl
    | ok elems =>
      dsimp only
      cases hsc : scanVals combineABCEJ elems with
      | error e => rfl
      | ok r =>
        dsimp only
        have hr : r.length = blocks + 1 := by
          rw [(scanVals_prefix hsc).1]
          unfold CLQT.parFwdBwdInit at hi
          simp only [bind_ok, pure, Except.pure, Except.ok.injEq] at hi
          obtain ⟨_, -, es, he, rfl⟩ := hi
          rw [List.length_cons, (mapM_range_ok.1 he).1]
        rw [clqr_par_fbExtract P Ks Ss r steps (some (t0.getD 0))]
        unfold CLQT.parFwdBwdExtract
        dsimp only
        rw [hr, Nat.add_sub_cancel, hd]
        rfl

end Verif
