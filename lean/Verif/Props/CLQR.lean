import Verif.Proof.CLQRFwd
import Verif.Props.CLQT

/-! C64 to C67: the continuous-time regulator, `/repo/parallel_control/clqt_np.py:152-904`. -/

namespace Verif

open Matrix

/-! ### C64: Runge-Kutta passes of the regulator and of the tracker -/

section C64
variable {n m : ℕ} {K : Type} [Field K] [LinearOrder K]

/-- C64 (sequential backward pass): with `'rk4'` the pass of `CLQR` returns the gains and value matrices that the pass of
`CLQT` computes for the same problem, for every initial time and every linear part of the terminal value function; and
exceptions are the same. -/
theorem C64_seq_bw (P : CLQR n m K) (ops : ExpOps n m K) (steps : ℕ) (hs : 0 < steps) (dt t0 : Option K)
    (S : Option (Matrix (Fin n) (Fin n) K)) (v : Option (Fin n → K)) :
    P.seqBackwardPass ops steps dt S .rk4 =
      (P.toCLQT.seqBackwardPass steps dt t0 S v).map fun r => (r.Kx_list, r.S_list) :=
  clqr_seq_bw P ops hs dt t0 S v

/-- C64 (linear parts): for the default terminal value function the linear parts and offsets of the tracker are zero. -/
theorem C64_seq_bw_zero (P : CLQR n m K) (ops : ExpOps n m K) (steps : ℕ) (hs : 0 < steps) (dt t0 : Option K)
    (S : Option (Matrix (Fin n) (Fin n) K)) :
    P.toCLQT.seqBackwardPass steps dt t0 S none = (P.seqBackwardPass ops steps dt S .rk4).map fun r =>
      ⟨r.1, List.replicate steps 0, r.2, List.replicate (steps + 1) 0⟩ :=
  clqr_seq_bw_zero P ops hs dt t0 S

/-- C64 (parallel backward pass): the pass of `CLQR`, which integrates one block and repeats the element, returns what the
pass of `CLQT`, which integrates every block, returns. -/
theorem C64_par_bw (P : CLQR n m K) (ops : ExpOps n m K) (blocks steps : ℕ) (t0 : Option K) :
    (∀ fw, P.parBackwardInit blocks steps .rk4 fw = P.toCLQT.parBackwardInit blocks steps none t0 fw) ∧
    (∀ elems, P.parBackwardExtract ops elems steps .rk4 =
      (P.toCLQT.parBackwardExtract elems steps none t0).map fun r => (r.Kx_list, r.S_list)) ∧
    P.parBackwardPass ops blocks steps .rk4 .rk4 =
      (P.toCLQT.parBackwardPass blocks steps none t0 false).map fun r => (r.Kx_list, r.S_list) :=
  ⟨clqr_par_init P blocks steps t0, fun elems => clqr_par_extract P ops elems steps t0, clqr_par_bw P ops blocks steps t0⟩

/-- C64 (forward passes): with zero offsets the forward passes of both classes agree. -/
theorem C64_fw (P : CLQR n m K) (ops : ExpOps n m K) (x0 : Fin n → K) (Kx_list : List (Matrix (Fin m) (Fin n) K))
    (t0 : Option K) (u_zoh : Bool) :
    (∀ dt, P.seqForwardPass ops x0 Kx_list dt .rk4 u_zoh =
      P.toCLQT.seqForwardPass x0 Kx_list (List.replicate Kx_list.length 0) dt t0 u_zoh) ∧
    ∀ blocks steps, blocks * steps = Kx_list.length → P.parForwardPass ops x0 Kx_list blocks steps .rk4 .rk4 u_zoh =
      P.toCLQT.parForwardPass x0 Kx_list (List.replicate Kx_list.length 0) blocks steps none t0 true u_zoh :=
  ⟨fun dt => clqr_seq_fw P ops x0 Kx_list dt t0 u_zoh, fun blocks steps h => clqr_par_fw P ops x0 Kx_list blocks steps t0 u_zoh h⟩

/-- C64 (parallel = sequential): without the zero order hold the parallel forward pass of `CLQR` returns what the sequential
pass returns. -/
theorem C64_par_seq_fw [CharZero K] (P : CLQR n m K) (ops : ExpOps n m K) (x0 : Fin n → K)
    (Kx_list : List (Matrix (Fin m) (Fin n) K)) (blocks steps : ℕ) (hK : Kx_list.length = blocks * steps) :
    P.parForwardPass ops x0 Kx_list blocks steps .rk4 .rk4 false = P.seqForwardPass ops x0 Kx_list none .rk4 false := by
  rw [clqr_par_fw P ops x0 Kx_list blocks steps none false hK.symm, clqr_seq_fw P ops x0 Kx_list none none false]
  exact C35_eq P.toCLQT x0 Kx_list _ blocks steps none none true hK (by rw [List.length_replicate, hK])

/-- C64 (forward-backward passes): with zero offsets and zero linear parts the passes of both classes agree. -/
theorem C64_fwdbwd (P : CLQR n m K) (x0 : Fin n → K) (t0 : Option K) :
    (∀ steps dt A b C, P.seqFwdBwdPass x0 steps dt A b C .rk4 = P.toCLQT.seqFwdBwdPass x0 steps dt t0 A b C) ∧
    (∀ (Kx_list : List (Matrix (Fin m) (Fin n) K)) (S_list : List (Matrix (Fin n) (Fin n) K)) (fw : AbcResult n K),
      CLQR.combineForwardBackward Kx_list S_list fw = CLQT.combineForwardBackward
      ⟨Kx_list, List.replicate Kx_list.length 0, S_list, List.replicate S_list.length 0⟩ fw) ∧
    ∀ (Kx_list : List (Matrix (Fin m) (Fin n) K)) (S_list : List (Matrix (Fin n) (Fin n) K)) (blocks steps : ℕ),
      P.parFwdBwdPass x0 Kx_list S_list blocks steps .rk4 .rk4 =
      P.toCLQT.parFwdBwdPass x0 ⟨Kx_list, List.replicate Kx_list.length 0, S_list, List.replicate S_list.length 0⟩ blocks steps
        none t0 true :=
  ⟨fun steps dt A b C => clqr_seq_fb P x0 steps dt t0 A b C, clqr_combine, fun Ks Ss blocks steps =>
    clqr_par_fb P x0 Ks Ss blocks steps t0⟩

end C64

/-- A regulator over the rational numbers. -/
def exReg : CLQR 2 1 ℚ := ⟨!![0, 1; 0, 0], !![0; 1], !![1, 0; 0, 1], !![2], !![3, 1; 1, 2], 1⟩

/-- Operations that are not used by `'rk4'`. -/
def exOps : ExpOps 2 1 ℚ := ⟨id, id, fun _ _ _ _ => .error .valueError⟩

example : (exReg.seqBackwardPass exOps 2).toOption.map (fun r => r.2.length) = some 3 ∧
    exReg.seqBackwardPass exOps 2 none none .rk4 =
      (exReg.toCLQT.seqBackwardPass 2 none (some 5) none (some ![1, 7])).map fun r => (r.Kx_list, r.S_list) :=
  ⟨by decide +kernel, C64_seq_bw exReg exOps 2 (by decide) none (some 5) none (some ![1, 7])⟩

example : exReg.toCLQT.seqBackwardPass 2 = (exReg.seqBackwardPass exOps 2).map fun r => ⟨r.1, [0, 0], r.2, [0, 0, 0]⟩ :=
  C64_seq_bw_zero exReg exOps 2 (by decide) none none none

example : (exReg.parBackwardPass exOps 2 1).toOption.map (fun r => (r.1.length, r.2.length)) = some (2, 3) ∧
    exReg.parBackwardPass exOps 2 1 = (exReg.toCLQT.parBackwardPass 2 1).map fun r => (r.Kx_list, r.S_list) :=
  ⟨by decide +kernel, (C64_par_bw exReg exOps 2 1 none).2.2⟩

example : exReg.parForwardPass exOps ![1, 2] [!![1, 0], !![0, 2], !![1, 1], !![2, 0]] 2 2 =
    exReg.seqForwardPass exOps ![1, 2] [!![1, 0], !![0, 2], !![1, 1], !![2, 0]] :=
  C64_par_seq_fw exReg exOps _ _ 2 2 rfl

example : (exReg.seqForwardPass exOps ![1, 2] [!![1, 0]] none .rk4 true).toOption.map (fun r => r.2.length) = some 2 ∧
    exReg.seqForwardPass exOps ![1, 2] [!![1, 0]] none .rk4 true = exReg.toCLQT.seqForwardPass ![1, 2] [!![1, 0]] [0] none none true :=
  ⟨by decide +kernel, (C64_fw exReg exOps ![1, 2] [!![1, 0]] none true).1 none⟩

example : (exReg.parFwdBwdPass ![1, 2] [!![1, 0]] [!![1, 0; 0, 1], !![3, 1; 1, 2]] 1 1).toOption.map (fun r => r.1.length) = some 1 ∧
    exReg.parFwdBwdPass ![1, 2] [!![1, 0]] [!![1, 0; 0, 1], !![3, 1; 1, 2]] 1 1 =
      exReg.toCLQT.parFwdBwdPass ![1, 2] ⟨[!![1, 0]], [0], [!![1, 0; 0, 1], !![3, 1; 1, 2]], [0, 0]⟩ 1 1 :=
  ⟨by decide +kernel, (C64_fwdbwd exReg ![1, 2] none).2.2 _ _ 1 1⟩

/-! ### C65: the exact backward pass -/

section C65
variable {n m : ℕ}

/-- C65 (exactness): whenever the Riccati equation has a solution `R` on `[0, steps·dt]` with the given terminal value, the
method `'exact'` returns its values at all grid points, and the gains `U⁻¹ Lᵀ R`.  The weights may be indefinite. -/
theorem C65_exact (P : CLQR n m ℝ) (hU : P.Uᵀ = P.U) (hpd : IsPD P.U) (hX : P.Xᵀ = P.X) (S0 : Matrix (Fin n) (Fin n) ℝ)
    (hS : S0ᵀ = S0) (steps : ℕ) (dt : ℝ) (hdt : 0 ≤ dt) (R : ℝ → Matrix (Fin n) (Fin n) ℝ)
    (hc : ∀ i j, ContinuousOn (fun s => R s i j) (Set.Icc 0 (steps * dt)))
    (hR : ∀ t ∈ Set.Ioo 0 (steps * dt), ∀ i j, HasDerivAt (fun s => R s i j)
      ((-(P.Fᵀ * R t) - R t * P.F + R t * P.L * P.U⁻¹ * P.Lᵀ * R t - P.X) i j) t) (hT : R (steps * dt) = S0) :
    P.seqBackwardPass (ExpOps.real n m) steps (some dt) (some S0) .exact =
      .ok ((List.range steps).map fun k : ℕ => P.U⁻¹ * P.Lᵀ * R (k * dt), (List.range (steps + 1)).map fun k : ℕ => R (k * dt)) := by
  refine exact_of_riccati P hU hpd hX hS steps hdt hc (fun t ht i j => ?_) hT
  have h := hR t ht i j
  unfold CLQR.riccatiF
  simpa only [Matrix.neg_mul, Matrix.mul_assoc] using h

/-- C65 (existence): for positive semidefinite weights the equation has such a solution, so that the pass does not fail for
any number of steps and any step length; all returned matrices are symmetric and positive semidefinite. -/
theorem C65_total (P : CLQR n m ℝ) (hU : P.Uᵀ = P.U) (hpd : IsPD P.U) (hX : IsPSD P.X) (S0 : Matrix (Fin n) (Fin n) ℝ)
    (hS : IsPSD S0) (steps : ℕ) (dt : ℝ) (hdt : 0 ≤ dt) :
    ∃ R : ℝ → Matrix (Fin n) (Fin n) ℝ, (∀ t ≤ steps * dt, ∀ i j, HasDerivAt (fun s => R s i j)
      ((-(P.Fᵀ * R t) - R t * P.F + R t * P.L * P.U⁻¹ * P.Lᵀ * R t - P.X) i j) t) ∧ R (steps * dt) = S0 ∧
      (∀ t ≤ steps * dt, IsPSD (R t)) ∧
      P.seqBackwardPass (ExpOps.real n m) steps (some dt) (some S0) .exact =
        .ok ((List.range steps).map fun k : ℕ => P.U⁻¹ * P.Lᵀ * R (k * dt), (List.range (steps + 1)).map fun k : ℕ => R (k * dt)) := by
  obtain ⟨R, h1, h2, h3⟩ := exact_exists P hU hpd hX hS (steps * dt)
  have h1' : ∀ t ≤ steps * dt, ∀ i j, HasDerivAt (fun s => R s i j)
      ((-(P.Fᵀ * R t) - R t * P.F + R t * P.L * P.U⁻¹ * P.Lᵀ * R t - P.X) i j) t := by
    intro t ht i j
    have h := h1 t ht i j
    unfold CLQR.riccatiF at h
    simpa only [Matrix.neg_mul, Matrix.mul_assoc] using h
  refine ⟨R, h1', h2, h3, C65_exact P hU hpd hX.1 S0 hS.1 steps dt hdt R
    (fun i j t ht => ((h1 t ht.2 i j).continuousAt).continuousWithinAt) (fun t ht => h1' t ht.2.le) h2⟩

/-- C65 (optimality): for positive semidefinite weights the pass over the horizon of the problem returns value matrices `S` and
gains `Kx` such that `½ x0ᵀ S x0` is the least cost from the grid point on, and the least cost is attained by a trajectory
whose control starts with `-Kx x0`. -/
theorem C65_optimal (P : CLQR n m ℝ) (hU : P.Uᵀ = P.U) (hpd : IsPD P.U) (hX : IsPSD P.X) (hXT : IsPSD P.XT) (hT : 0 ≤ P.T)
    (steps : ℕ) (hs : 0 < steps) : ∃ Ks Ss, P.seqBackwardPass (ExpOps.real n m) steps none none .exact = .ok (Ks, Ss) ∧
      Ks.length = steps ∧ Ss.length = steps + 1 ∧ ∀ k ≤ steps, ∃ S, Ss[k]? = some S ∧ ∀ x0 : Fin n → ℝ,
        (∀ x u, P.IsTraj (k * (P.T / steps)) x0 x u → (1 / 2) * (x0 ⬝ᵥ S *ᵥ x0) ≤ P.totalCost (k * (P.T / steps)) x u) ∧
        ∃ x u, P.IsTraj (k * (P.T / steps)) x0 x u ∧ P.totalCost (k * (P.T / steps)) x u = (1 / 2) * (x0 ⬝ᵥ S *ᵥ x0) ∧
          ∀ Kx, Ks[k]? = some Kx → u (k * (P.T / steps)) = -Kx *ᵥ x0 := by
  have hs' : (0 : ℝ) < steps := by exact_mod_cast hs
  have hdt : 0 ≤ P.T / steps := by positivity
  have hG := lult_psd (P := P) hU hpd
  have hp := exactPass P (gain_uinv hU hpd) (S := P.XT) hU hX.1 hXT.1 hdt steps
    (fun k hk => den_det P hG hX hXT (by positivity))
  have e : P.seqBackwardPass (ExpOps.real n m) steps none none .exact =
      P.seqBackwardPass (ExpOps.real n m) steps (some (P.T / steps)) (some P.XT) .exact := by
    unfold CLQR.seqBackwardPass CLQR.dtSeq pyDiv
    rw [if_neg hs'.ne']
    rfl
  refine ⟨_, _, e.trans hp, by simp, by simp, fun k hk => ⟨P.sol (P.L * (P.U⁻¹ * P.Lᵀ)) P.XT ((steps - k : ℕ) * (P.T / steps)), ?_, ?_⟩⟩
  · simp [Nat.lt_succ_iff.2 hk]
  · intro x0
    have et : ((steps - k : ℕ) : ℝ) * (P.T / steps) = P.T - k * (P.T / steps) := by
      rw [Nat.cast_sub hk]
      field_simp
    have hle : (k : ℝ) * (P.T / steps) ≤ P.T := by
      have : (0 : ℝ) ≤ ((steps - k : ℕ) : ℝ) * (P.T / steps) := by positivity
      linarith
    obtain ⟨h1, x, u, h2, h3, h4⟩ := exact_value P hU hpd hX hXT (k * (P.T / steps)) hle x0
    rw [et]
    refine ⟨h1, x, u, h2, h3, fun Kx hK => ?_⟩
    rw [h4 _ ⟨le_rfl, hle⟩, h2.start]
    rw [List.getElem?_map] at hK
    by_cases hk' : k < steps
    · rw [List.getElem?_range hk'] at hK
      simp only [Option.map_some, Option.some.injEq] at hK
      rw [← hK, et]
    · rw [List.getElem?_eq_none (by simpa using hk')] at hK
      simp at hK

/-- C65 (conjugate point): for an indefinite weight the method `'exact'` raises `LinAlgError` when the solution escapes
exactly at a grid point. -/
theorem C65_conjugate : conjP.seqBackwardPass (ExpOps.real 1 1) 1 none none .exact = .error .linAlgError := by
  have hpi : solvePos conjP.U conjP.Lᵀ = .ok (1 : Matrix (Fin 1) (Fin 1) ℝ) := by
    rw [solvePos_ok (by simp [conjP])]
    refine ⟨fun x hx => ?_, by simp [conjP]⟩
    have h0 : x 0 ≠ 0 := fun h => hx (funext fun i => by rw [Subsingleton.elim i 0]; exact h)
    have : 0 < x 0 * x 0 := mul_self_pos.2 h0
    simpa [conjP, dotProduct] using this
  have hD : (NormedSpace.exp ((-(Real.pi / 2)) • conjP.ham 1) * fromRows 1 (0 : Matrix (Fin 1) (Fin 1) ℝ)).toRows₁ = 0 := conj_den
  unfold CLQR.seqBackwardPass CLQR.dtSeq pyDiv
  dsimp only
  rw [if_neg (by simp), py_ok_bind, hpi, py_ok_bind]
  have e1 : (ExpOps.real 1 1).expm2 ((-(conjP.T / ((1 : ℕ) : ℝ))) • conjP.ham (conjP.L * 1)) =
      NormedSpace.exp ((-(Real.pi / 2)) • conjP.ham 1) := by
    have : conjP.T / ((1 : ℕ) : ℝ) = Real.pi / 2 := by simp [conjP]
    rw [this, show conjP.L * (1 : Matrix (Fin 1) (Fin 1) ℝ) = 1 by simp [conjP]]
    rfl
  rw [e1]
  show ((List.foldlM _ _ [0] : Py _) >>= _) >>= _ = _
  rw [List.foldlM_cons]
  unfold CLQR.bwExStep
  have e2 : (none : Option (Matrix (Fin 1) (Fin 1) ℝ)).getD conjP.XT = 0 := rfl
  rw [e2]
  dsimp only
  rw [hD]
  unfold solve luFactor
  rw [transpose_zero, det_zero, if_pos rfl]
  rfl

end C65

/-- `dx/dt = u` with cost `½ x(T)² + ½ ∫ (x² + u²)`. -/
noncomputable def exRegR : CLQR 1 1 ℝ := ⟨0, 1, 1, 1, 1, 2⟩

theorem one_psd1 : IsPSD (1 : Matrix (Fin 1) (Fin 1) ℝ) :=
  ⟨transpose_one, fun x => by rw [one_mulVec]; exact Finset.sum_nonneg fun i _ => mul_self_nonneg _⟩

theorem one_pd1 : IsPD (1 : Matrix (Fin 1) (Fin 1) ℝ) := fun x hx => by
  have h0 : x 0 ≠ 0 := fun h => hx (funext fun i => by rw [Subsingleton.elim i 0]; exact h)
  simpa [dotProduct] using mul_self_pos.2 h0

example : ∃ Ks Ss, exRegR.seqBackwardPass (ExpOps.real 1 1) 4 none none .exact = .ok (Ks, Ss) ∧ Ks.length = 4 ∧ Ss.length = 5 := by
  obtain ⟨Ks, Ss, h1, h2, h3, -⟩ := C65_optimal exRegR transpose_one one_pd1 one_psd1 one_psd1 (by simp [exRegR]) 4 (by norm_num)
  exact ⟨Ks, Ss, h1, h2, h3⟩

example : exRegR.seqBackwardPass (ExpOps.real 1 1) 3 (some 2) (some 1) .exact =
    .ok ([1, 1, 1], [1, 1, 1, 1]) := by
  have h := C65_exact exRegR transpose_one one_pd1 transpose_one 1 transpose_one 3 2 (by norm_num) (fun _ => 1)
    (fun i j => continuousOn_const) (fun t _ i j => by
      have e : -(exRegR.Fᵀ * (1 : Matrix (Fin 1) (Fin 1) ℝ)) - 1 * exRegR.F + 1 * exRegR.L * exRegR.U⁻¹ * exRegR.Lᵀ * 1 - exRegR.X = 0 := by
        simp [exRegR]
      rw [e]
      exact hasDerivAt_const _ _) rfl
  rw [h]
  simp [exRegR, List.range_succ]

example : ∃ R : ℝ → Matrix (Fin 1) (Fin 1) ℝ, R ((4 : ℕ) * (1 / 2)) = 1 ∧ ∀ t ≤ (4 : ℕ) * (1 / 2 : ℝ), IsPSD (R t) := by
  obtain ⟨R, -, h2, h3, -⟩ := C65_total exRegR transpose_one one_pd1 one_psd1 1 one_psd1 4 (1 / 2) (by norm_num)
  exact ⟨R, h2, h3⟩

/-! ### C66: the exact forward pass -/

section C66
variable {n m : ℕ}

/-- C66: the method `'exact'` returns states and controls such that every control is `-Kx x` at the start of its interval and
every state is the value after `dt` of a solution, and of every solution, of the system over the interval: of
`dx/dt = (F - L Kx) x`, or with the zero order hold of `dx/dt = F x + L u`. -/
theorem C66_forward (P : CLQR n m ℝ) (x0 : Fin n → ℝ) (Kx_list : List (Matrix (Fin m) (Fin n) ℝ)) (dt : ℝ) (u_zoh : Bool) :
    ∃ (u : ℕ → Fin m → ℝ) (x : ℕ → Fin n → ℝ),
      P.seqForwardPass (ExpOps.real n m) x0 Kx_list (some dt) .exact u_zoh =
        .ok ((List.range Kx_list.length).map u, (List.range (Kx_list.length + 1)).map x) ∧ x 0 = x0 ∧
      ∀ k Kx, Kx_list[k]? = some Kx → u k = -Kx *ᵥ x k ∧
        (∃ y : ℝ → Fin n → ℝ, y 0 = x k ∧ y dt = x (k + 1) ∧ ∀ t i, HasDerivAt (fun s => y s i)
          ((P.F *ᵥ y t + P.L *ᵥ (if u_zoh then u k else -Kx *ᵥ y t)) i) t) ∧
        ∀ y : ℝ → Fin n → ℝ, 0 ≤ dt → y 0 = x k → (∀ t ∈ Set.Icc 0 dt, ∀ i, HasDerivAt (fun s => y s i)
          ((P.F *ᵥ y t + P.L *ᵥ (if u_zoh then u k else -Kx *ᵥ y t)) i) t) → x (k + 1) = y dt := by
  refine ⟨_, _, exFw P x0 Kx_list dt u_zoh, rfl, fun k Kx hK => ?_⟩
  have e : Kx_list[k]?.getD 0 = Kx := by rw [hK]; rfl
  rw [e]
  refine ⟨rfl, ?_⟩
  cases u_zoh with
  | true =>
    have hx : P.exTraj (discA P.F dt) (discB P.F P.L dt) true Kx_list dt x0 (k + 1) =
        discA P.F dt *ᵥ P.exTraj (discA P.F dt) (discB P.F P.L dt) true Kx_list dt x0 k + discB P.F P.L dt *ᵥ
          (-Kx *ᵥ P.exTraj (discA P.F dt) (discB P.F P.L dt) true Kx_list dt x0 k) := by
      rw [CLQR.exTraj, e]; rfl
    rw [hx]
    refine ⟨⟨fun s => discA P.F s *ᵥ P.exTraj (discA P.F dt) (discB P.F P.L dt) true Kx_list dt x0 k + discB P.F P.L s *ᵥ
          (-Kx *ᵥ P.exTraj (discA P.F dt) (discB P.F P.L dt) true Kx_list dt x0 k), ?_, rfl, fun t i => zoh_exists _ _ _ _ t i⟩, ?_⟩
    · dsimp only
      rw [discA_zero, discB_zero', one_mulVec, zero_mulVec, add_zero]
    · intro y hdt h0 hy
      have := zoh_solution P.F P.L (-Kx *ᵥ P.exTraj (discA P.F dt) (discB P.F P.L dt) true Kx_list dt x0 k) y dt hdt hy
      rw [this, h0]
  | false =>
    have hx : P.exTraj (discA P.F dt) (discB P.F P.L dt) false Kx_list dt x0 (k + 1) =
        discA (P.F - P.L * Kx) dt *ᵥ P.exTraj (discA P.F dt) (discB P.F P.L dt) false Kx_list dt x0 k := by
      rw [CLQR.exTraj, e]; rfl
    have hf : ∀ z : Fin n → ℝ, P.F *ᵥ z + P.L *ᵥ (-Kx *ᵥ z) = (P.F - P.L * Kx) *ᵥ z + (0 : Matrix (Fin n) (Fin m) ℝ) *ᵥ 0 := by
      intro z
      rw [mulVec_zero, add_zero, mulVec_mulVec, Matrix.mul_neg, neg_mulVec, sub_mulVec, sub_eq_add_neg]
    simp only [Bool.false_eq_true, if_false, hf]
    rw [hx]
    refine ⟨⟨fun s => discA (P.F - P.L * Kx) s *ᵥ P.exTraj (discA P.F dt) (discB P.F P.L dt) false Kx_list dt x0 k, ?_, rfl, fun t i => ?_⟩, ?_⟩
    · dsimp only
      rw [discA_zero, one_mulVec]
    · have := zoh_exists (P.F - P.L * Kx) (0 : Matrix (Fin n) (Fin m) ℝ) 0
        (P.exTraj (discA P.F dt) (discB P.F P.L dt) false Kx_list dt x0 k) t i
      simpa only [mulVec_zero, add_zero] using this
    · intro y hdt h0 hy
      have := zoh_solution (P.F - P.L * Kx) (0 : Matrix (Fin n) (Fin m) ℝ) 0 y dt hdt hy
      rw [this, h0, mulVec_zero, add_zero]

end C66

example : ∃ (u : ℕ → Fin 1 → ℝ) (x : ℕ → Fin 1 → ℝ), exRegR.seqForwardPass (ExpOps.real 1 1) 1 [1, 1] (some 1) .exact true =
    .ok ([u 0, u 1], [x 0, x 1, x 2]) ∧ u 0 = -1 ∧ x 1 = 0 := by
  obtain ⟨u, x, h1, h2, h3⟩ := C66_forward exRegR 1 [1, 1] 1 true
  obtain ⟨h4, -, h5⟩ := h3 0 1 rfl
  have hu : u 0 = -1 := by rw [h4, h2, neg_mulVec, one_mulVec]
  refine ⟨u, x, h1, hu, ?_⟩
  rw [h5 (fun t _ => 1 - t) (by norm_num) (by rw [h2]; funext i; simp) (fun t _ i => by
    simp only [if_true, hu]
    have e : (exRegR.F *ᵥ (fun _ => 1 - t) + exRegR.L *ᵥ (-1)) i = 0 - 1 := by simp [exRegR]
    rw [e]
    exact (hasDerivAt_const t (1 : ℝ)).sub (hasDerivAt_id t))]
  funext i
  simp

example : ∃ (u : ℕ → Fin 1 → ℝ) (x : ℕ → Fin 1 → ℝ), exRegR.seqForwardPass (ExpOps.real 1 1) 1 [0] (some 1) .exact false = .ok ([u 0], [x 0, x 1]) ∧ x 1 = 1 := by
  obtain ⟨u, x, h1, h2, h3⟩ := C66_forward exRegR 1 [0] 1 false
  obtain ⟨-, -, h5⟩ := h3 0 0 rfl
  refine ⟨u, x, h1, ?_⟩
  rw [h5 (fun _ _ => 1) (by norm_num) (by rw [h2]; rfl) (fun t _ i => by
    have e : (exRegR.F *ᵥ (fun _ => 1) + exRegR.L *ᵥ (if false = true then u 0 else -(0 : Matrix (Fin 1) (Fin 1) ℝ) *ᵥ fun _ => 1)) i = 0 := by
      simp [exRegR]
    rw [e]
    exact hasDerivAt_const _ _)]
  rfl

/-! ### C67: exceptions -/

section C67
variable {n m : ℕ} {K : Type} [Field K] [LinearOrder K]

/-- C67 (methods): an unknown method raises `ValueError` in the sequential passes once the step length and the gain matrix are
available, and `'exact'` raises `ValueError` in every initialisation. -/
theorem C67_methods (P : CLQR n m K) (ops : ExpOps n m K) (steps blocks : ℕ) (dt : K) (S : Option (Matrix (Fin n) (Fin n) K))
    (x0 : Fin n → K) (Kx_list : List (Matrix (Fin m) (Fin n) K)) (zoh fw : Bool) (ULT : Matrix (Fin m) (Fin n) K)
    (hU : solvePos P.U P.Lᵀ = .ok ULT) (A : Option (Matrix (Fin n) (Fin n) K)) (b : Option (Fin n → K))
    (C : Option (Matrix (Fin n) (Fin n) K)) :
    P.seqBackwardPass ops steps (some dt) S .other = .error .valueError ∧
    P.seqForwardPass ops x0 Kx_list (some dt) .other zoh = .error .valueError ∧
    ∀ mt, mt = .exact ∨ mt = .other → P.seqFwdBwdPass x0 steps (some dt) A b C mt = .error .valueError ∧
      P.parBackwardInit blocks steps mt fw = .error .valueError ∧ P.parFwdBwdInit x0 blocks steps mt fw = .error .valueError := by
  refine ⟨?_, rfl, fun mt h => ?_⟩
  · unfold CLQR.seqBackwardPass CLQR.dtSeq
    dsimp only
    rw [hU]
    rfl
  · rcases h with rfl | rfl <;> exact ⟨rfl, rfl, rfl⟩

/-- C67 (parallel passes): with a method other than `'rk4'` for the initialisation no parallel pass returns. -/
theorem C67_par_methods (P : CLQR n m K) (ops : ExpOps n m K) (blocks steps : ℕ) (x0 : Fin n → K)
    (Kx_list : List (Matrix (Fin m) (Fin n) K)) (S_list : List (Matrix (Fin n) (Fin n) K)) (mt ext : OdeMethod) (hm : mt ≠ .rk4)
    (zoh : Bool) :
    P.parBackwardPass ops blocks steps mt ext = .error .valueError ∧
    P.parFwdBwdPass x0 Kx_list S_list blocks steps mt ext = .error .valueError ∧
    ∃ e, P.parForwardPass ops x0 Kx_list blocks steps mt ext zoh = .error e := by
  refine ⟨?_, ?_, ?_⟩
  · cases mt with
    | rk4 => exact absurd rfl hm
    | exact => rfl
    | other => rfl
  · cases mt with
    | rk4 => exact absurd rfl hm
    | exact => rfl
    | other => rfl
  · unfold CLQR.parForwardPass CLQR.parForwardInit
    by_cases hl : blocks * steps ≠ Kx_list.length
    · rw [if_pos hl]; exact ⟨_, rfl⟩
    rw [if_neg hl]
    cases hd : P.dtPar blocks steps with
    | error e => exact ⟨_, rfl⟩
    | ok dt =>
      obtain ⟨b, hb⟩ := Nat.exists_eq_succ_of_ne_zero (dtPar_ok P hd).1
      have e : (List.range blocks).mapM (P.psiElem true Kx_list steps dt mt) = .error .valueError := by
        rw [hb, List.range_succ_eq_map, List.mapM_cons]
        cases mt with
        | rk4 => exact absurd rfl hm
        | exact => rfl
        | other => rfl
      rw [py_ok_bind, e]
      exact ⟨_, rfl⟩

/-- C67 (input weight): if `U` is symmetric but not positive definite, the backward pass raises `LinAlgError` for every
method, even with no steps. -/
theorem C67_weight [IsStrictOrderedRing K] (P : CLQR n m K) (ops : ExpOps n m K) (steps : ℕ) (dt : K)
    (S : Option (Matrix (Fin n) (Fin n) K)) (mt : OdeMethod) (hU : P.Uᵀ = P.U) (hn : ¬ IsPD P.U) :
    P.seqBackwardPass ops steps (some dt) S mt = .error .linAlgError := by
  have h : solvePos P.U P.Lᵀ = .error .linAlgError := by
    cases h : solvePos P.U P.Lᵀ with
    | ok W => exact absurd ((solvePos_ok hU).1 h).1 hn
    | error e =>
      unfold solvePos choFactor at h
      split_ifs at h
      · cases h
      · cases h; rfl
  unfold CLQR.seqBackwardPass CLQR.dtSeq
  dsimp only
  rw [h]
  rfl

/-- C67 (lengths): with a wrong number of gains the parallel forward pass raises `ValueError` for every number of blocks and
steps and every method. -/
theorem C67_lengths (P : CLQR n m K) (ops : ExpOps n m K) (x0 : Fin n → K) (Kx_list : List (Matrix (Fin m) (Fin n) K))
    (blocks steps : ℕ) (m1 m2 : OdeMethod) (zoh : Bool) (hK : blocks * steps ≠ Kx_list.length) :
    P.parForwardPass ops x0 Kx_list blocks steps m1 m2 zoh = .error .valueError := by
  unfold CLQR.parForwardPass CLQR.parForwardInit
  rw [if_pos hK]
  rfl

/-- C67 (order of the checks): without steps the tracker raises `ZeroDivisionError` where the regulator raises
`ValueError`. -/
theorem C67_order (P : CLQR n m K) (ops : ExpOps n m K) (x0 : Fin n → K) (Kx : Matrix (Fin m) (Fin n) K) (blocks : ℕ) :
    P.parForwardPass ops x0 [Kx] blocks 0 = .error .valueError ∧
    P.toCLQT.parForwardPass x0 [Kx] [0] blocks 0 = .error .zeroDivisionError := by
  refine ⟨C67_lengths P ops x0 [Kx] blocks 0 _ _ _ (by simp), ?_⟩
  have : P.toCLQT.dtPar blocks 0 none = .error .zeroDivisionError := by
    unfold CLQT.dtPar pyDiv
    simp [bind, Except.bind]
  unfold CLQT.parForwardPass
  dsimp only
  rw [this]
  rfl

/-- C67 (division): without a step length and without steps the sequential passes raise `ZeroDivisionError`; without blocks or
steps the parallel passes with matching lists do. -/
theorem C67_division (P : CLQR n m K) (ops : ExpOps n m K) (x0 : Fin n → K) (S : Option (Matrix (Fin n) (Fin n) K))
    (mt ext : OdeMethod) (zoh : Bool) (blocks steps : ℕ) (h0 : blocks * steps = 0) :
    P.seqBackwardPass ops 0 none S mt = .error .zeroDivisionError ∧
    P.seqForwardPass ops x0 [] none mt zoh = .error .zeroDivisionError ∧
    P.parBackwardPass ops blocks steps .rk4 ext = .error .zeroDivisionError ∧
    P.parForwardPass ops x0 [] blocks steps mt ext zoh = .error .zeroDivisionError := by
  have hz : P.dtSeq 0 none = .error .zeroDivisionError := by
    unfold CLQR.dtSeq pyDiv
    simp
  have hp : P.dtPar blocks steps = .error .zeroDivisionError := by
    unfold CLQR.dtPar pyDiv
    by_cases hs : (steps : K) = 0
    · rw [if_pos hs]; rfl
    · rw [if_neg hs, py_ok_bind]
      rcases Nat.mul_eq_zero.1 h0 with h | h
      · rw [if_pos (by rw [h, Nat.cast_zero])]
      · exact absurd (by rw [h, Nat.cast_zero]) hs
  refine ⟨?_, ?_, ?_, ?_⟩
  · unfold CLQR.seqBackwardPass
    dsimp only
    rw [hz]; rfl
  · unfold CLQR.seqForwardPass
    dsimp only [List.length_nil]
    rw [hz]; rfl
  · unfold CLQR.parBackwardPass CLQR.parBackwardInit CLQR.blockElem
    dsimp only
    rw [hp]; rfl
  · unfold CLQR.parForwardPass CLQR.parForwardInit
    rw [if_neg (fun h => h h0), hp]
    rfl

end C67

example : exReg.parBackwardPass exOps 2 3 .exact .rk4 = .error .valueError :=
  (C67_par_methods exReg exOps 2 3 0 [] [] .exact .rk4 (by decide) false).1

example : exReg.parForwardPass exOps ![1, 2] [!![1, 0]] 2 3 = .error .valueError :=
  C67_lengths exReg exOps _ _ 2 3 _ _ _ (by decide)

example : (⟨0, 1, 1, 0, 0, 1⟩ : CLQR 1 1 ℚ).seqBackwardPass ⟨id, id, fun _ _ _ _ => .error .valueError⟩ 0 (some 1) none .exact =
    .error .linAlgError :=
  C67_weight _ _ 0 1 none .exact transpose_zero fun h => by
    have := h (fun _ => 1) (by intro e; exact one_ne_zero (congrFun e 0))
    simp at this

example : exReg.parForwardPass exOps ![1, 2] [!![1, 0]] 2 0 = .error .valueError ∧
    exReg.toCLQT.parForwardPass ![1, 2] [!![1, 0]] [0] 2 0 = .error .zeroDivisionError := C67_order exReg exOps _ _ 2

example : exReg.parBackwardPass exOps 0 3 = .error .zeroDivisionError :=
  (C67_division exReg exOps 0 none .rk4 .rk4 false 0 3 rfl).2.2.1

example : exReg.seqBackwardPass exOps 2 (some 1) none .other = .error .valueError :=
  (C67_methods exReg exOps 2 2 1 none 0 [] false false !![0, 1 / 2] ((solvePos_ok (by decide)).2 ⟨fun x hx => by
    have h0 : x 0 ≠ 0 := fun h => hx (funext fun i => by rw [Subsingleton.elim i 0]; exact h)
    have : 0 < x 0 * x 0 := mul_self_pos.2 h0
    simp [exReg, dotProduct, mulVec]
    nlinarith, by decide +kernel⟩) none none none).1

end Verif
