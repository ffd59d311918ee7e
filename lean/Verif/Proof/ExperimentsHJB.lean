import Verif.Proof.ExperimentsMain
import Verif.Props.CLQTFBConv
import Verif.Props.LinearModel
import Verif.Props.SpeedContlin
import Verif.Props.SpeedHJB

/-! Helper lemmas for C90: completion of the speed tests of the continuous-time scripts. -/

namespace Verif

open Matrix

variable {n m : ℕ}

/-! ### Parareal tests -/

theorem CLQT.prForward_len {K : Type} [Field K] [LinearOrder K] [IsStrictOrderedRing K] (P : CLQT n m K) (u_zoh : Bool) {B steps : ℕ} (niter : Option ℕ) (hB : B ≠ 0)
    (hs : steps ≠ 0) {Kxs : List (Matrix (Fin m) (Fin n) K)} {ds : List (Fin m → K)} (hK : Kxs.length = B * steps)
    (hd : ds.length = B * steps) (x0 : Fin n → K) :
    ∃ us xs, P.prForwardPass B steps x0 Kxs ds u_zoh niter = .ok (us, xs) ∧ xs.length = B * steps + 1 := by
  obtain ⟨κ, rfl, rfl⟩ := exists_gains hK hd
  have hD : pyDiv P.T (B : K) = .ok (P.T / B) := pyDiv_ok.2 ⟨Nat.cast_ne_zero.2 hB, rfl⟩
  have hdt : pyDiv (P.T / B) (steps : K) = .ok (P.T / B / steps) := pyDiv_ok.2 ⟨Nat.cast_ne_zero.2 hs, rfl⟩
  generalize P.T / (B : K) / (steps : K) = dt at hdt
  obtain ⟨cur, hcur, hrun⟩ := CLQT.prFwRun_inv (P := P) (u_zoh := u_zoh) (κ := κ) (x0 := x0) hB hs hD hdt
  obtain ⟨s, g, hst, -⟩ := hrun (niter.getD steps)
  have : ∀ q : ℕ, ∃ ξ, ξ 0 = s q ∧ P.FwSeq u_zoh steps dt (q * steps * dt) (fun i => κ (q * steps + i)) ξ :=
    fun q => P.fwSeq_total u_zoh steps dt (q * steps * dt) (fun i => κ (q * steps + i)) (s q)
  choose ξ hξ using this
  have h := (CLQT.prFinalForward_ok (P := P) (u_zoh := u_zoh) (κ := κ) (steps := steps) (s := s) hB).2
    ⟨_, hD, dt, hdt, ξ, fun q _ => hξ q, rfl⟩
  have hp : ∀ r, P.prFinalForward steps ((List.range (B + 1)).map s) (gainLists (B * steps) κ).1 (gainLists (B * steps) κ).2 u_zoh = .ok r →
      P.prForwardPass B steps x0 (gainLists (B * steps) κ).1 (gainLists (B * steps) κ).2 u_zoh niter = .ok r := by
    intro r hr
    unfold CLQT.prForwardPass
    simp only [bind_ok]
    exact ⟨cur, hcur, _, hst, hr⟩
  exact ⟨_, _, hp _ h, by simp [List.length_flatten, Function.comp_def]⟩

theorem getElem?_length {α : Type} {l l' : List α} {N : ℕ} (h : ∀ j, N ≤ j → l[j]? = l'[j]?) (hl : N < l'.length) : l.length = l'.length := by
  have h1 := h l'.length hl.le
  rw [List.getElem?_eq_none le_rfl, List.getElem?_eq_none_iff] at h1
  have h2 := h (l'.length - 1) (by omega)
  rw [List.getElem?_eq_getElem (l := l') (by omega)] at h2
  have := (List.getElem?_eq_some_iff.1 h2).1
  omega

/-- The Parareal tests of the backward and the backward-forward pipeline complete for every number of iterations. -/
theorem CLQT.prSpeed_total {K : Type} [Field K] [LinearOrder K] [IsStrictOrderedRing K] [NeZero n] (P : CLQT n m K)
    (hU : ∀ t, (P.U t)ᵀ = P.U t ∧ IsPD (P.U t)) (x0 : Fin n → K) (blocks steps niter n_iter : ℕ) (hB : blocks ≠ 0) (hs : steps ≠ 0)
    (hi : niter ≠ 0) (hn : n_iter ≠ 0) :
    (∃ e, P.prBwSpeed x0 blocks steps niter n_iter = .ok e ∧ 0 ≤ e) ∧ ∃ e, P.prBwFwSpeed x0 blocks steps niter n_iter = .ok e ∧ 0 ≤ e := by
  obtain ⟨bw, xu, h1, h2, h3⟩ := P.spRef1_ok hU x0 blocks steps hB hs
  obtain ⟨l1, l2, l3, l4⟩ := CLQT.tfSeqBackward_length h1
  have hlx := CLQT.tfSeqForward_length h2
  obtain ⟨r, r', hr, hr', hj⟩ := C83_parareal_blocks P hU x0 blocks steps niter hB hs hi
  rw [h3, Except.ok.injEq] at hr'
  subst hr'
  have hlt : (blocks - 1 - niter) * steps < blocks * steps :=
    (Nat.mul_lt_mul_right (by omega)).2 (by omega)
  have eS := getElem?_length (fun j h => (hj j h).1) (by dsimp only; omega)
  have eK := getElem?_length (fun j h => (hj j h).2.2.1) (by dsimp only; omega)
  have eD := getElem?_length (fun j h => (hj j h).2.2.2) (by dsimp only; omega)
  dsimp only at eS eK eD
  constructor
  · obtain ⟨e, he, -, k, A, A', i, j, -, -, rfl⟩ := tfMaxAbsMat_ok (As := r.S_list) (Bs := bw.S_list) eS (by
      intro h0
      rw [h0] at eS
      simp at eS
      omega)
    exact ⟨_, (contSpeed_eq hn _ hr h3).trans he, abs_nonneg _⟩
  · obtain ⟨us, xs, hf, hl⟩ := P.prForward_len false (some niter) hB hs (eK.trans l1) (eD.trans l2) x0
    have hf' := (C72_forward P blocks steps niter hB hs hi x0 _ _ (eK.trans l1) (eD.trans l2) false us xs).2 hf
    have hrun : P.spPrBwFw x0 blocks steps niter = .ok (r, xs, us) := by
      unfold CLQT.spPrBwFw
      have hr0 : P.tfPrBackward blocks steps niter = .ok r := hr
      rw [hr0, py_ok_bind, hf']
      rfl
    obtain ⟨e, he, -, k, A, A', i, -, -, rfl⟩ := tfMaxAbsV_ok (As := xs) (Bs := xu.1) (by rw [hl, hlx, l2]) (by
      intro h0
      rw [h0] at hl
      simp at hl)
    exact ⟨_, (contSpeed_eq hn _ hrun h3).trans he, abs_nonneg _⟩

/-- The tests of the parallel passes complete from some number of steps on, with small errors; so does the second reference. -/
theorem CLQT.parSpeed_total [NeZero n] (P : CLQT n m ℝ) (h0 : 0 < P.T) (hP : P.ContData 0 P.T)
    (hU : ∀ t, (P.U t)ᵀ = P.U t ∧ IsPD (P.U t)) (hX : ∀ t ∈ Set.Icc 0 P.T, IsPSD (P.X t)) (hXT : IsPSD P.XT) (scan : AScan)
    (hsc : ∀ α, IsAssocScan (scan α)) (hf : ∀ α, IsFiniteScan (scan α)) (x0 : Fin n → ℝ) (blocks : ℕ) (hB : 0 < blocks) (ε : ℝ)
    (hε : 0 < ε) :
    ∃ N0 : ℕ, 0 < N0 ∧ ∀ steps ≥ N0, ∀ n_iter ≠ 0,
      (∃ e, P.parBwSpeed scan x0 blocks steps n_iter = .ok e ∧ 0 ≤ e ∧ e ≤ ε) ∧
      (∃ e, P.parBwFwSpeed scan x0 blocks steps n_iter = .ok e ∧ 0 ≤ e ∧ e ≤ ε) ∧
      (∃ e, P.parBwFwBwSpeed scan x0 blocks steps n_iter = .ok e ∧ 0 ≤ e ∧ e ≤ ε) ∧ ∃ r, P.spRef2 x0 blocks steps = .ok r := by
  obtain ⟨N1, hN1, h1⟩ := C86_speed P h0 hP hU hX hXT scan hsc x0 blocks hB ε hε
  obtain ⟨N2, hN2, h2⟩ := C86_tf_complete P h0 hP hU hX hXT (scan _) (hsc _) (hf _) blocks hB
  obtain ⟨N3, hN3, h3⟩ := C87_speed P h0 hP hU hX hXT scan hsc hf x0 blocks hB ε hε
  refine ⟨max N1 (max N2 N3), by omega, fun steps hs n_iter hn => ?_⟩
  obtain ⟨r, -, hr⟩ := h2 steps (by omega) false
  have hl := C83_levels scan P blocks steps hB (P.tfParDefaults blocks steps).1 (P.tfParDefaults blocks steps).2.1
    (P.tfParDefaults blocks steps).2.2.1 (P.tfParDefaults blocks steps).2.2.2 (0 : Fin n → ℝ) [] [] r
  have hsp : P.spParBw scan blocks steps = .ok r := hl.1.trans hr
  obtain ⟨r', xu, g1, g2, g3, ⟨g4, g5, g6, -⟩, -⟩ := C83_par P hU scan hsc x0 blocks steps hB.ne' (by omega) r hsp
  obtain ⟨bw, xu', k1, k2, k3⟩ := P.spRef1_ok hU x0 blocks steps hB.ne' (by omega)
  rw [g1, Except.ok.injEq] at k3
  subst k3
  obtain ⟨l1, l2, l3, l4⟩ := CLQT.tfSeqBackward_length k1
  have m1 := CLQT.tfSeqForward_length g3
  have m2 := CLQT.tfSeqForward_length k2
  dsimp only at g4 g5 g6
  refine ⟨?_, ?_, ?_⟩
  · obtain ⟨e, he, -⟩ := tfMaxAbsMat_ok (As := r.S_list) (Bs := bw.S_list) g6 (by
      intro h
      rw [h] at g6
      simp at g6
      omega)
    have he' : P.parBwSpeed scan x0 blocks steps n_iter = .ok e := (contSpeed_eq hn _ hsp g1).trans he
    exact ⟨e, he', (h1 steps (by omega) n_iter e).1 he'⟩
  · obtain ⟨e, he, -⟩ := tfMaxAbsV_ok (As := xu.1) (Bs := xu'.1) (by rw [m1, m2, g5]) (by
      intro h
      rw [h] at m1
      simp at m1)
    have he' : P.parBwFwSpeed scan x0 blocks steps n_iter = .ok e := (contSpeed_eq hn _ g2 g1).trans he
    exact ⟨e, he', (h1 steps (by omega) n_iter e).2 he'⟩
  · obtain ⟨e, he, h4⟩ := h3 steps (by omega) n_iter hn
    obtain ⟨_, r2, -, hr2, -⟩ := contSpeed_ok _ he
    exact ⟨⟨e, he, h4⟩, r2, hr2⟩

/-! ### The tracking problem -/

theorem contTracking_U (t : ℝ) : (contTracking.1.U t)ᵀ = contTracking.1.U t ∧ IsPD (contTracking.1.U t) := by
  unfold contTracking
  rw [C74_continuous.1]
  have := C74_continuous.2.2.2.2.2.1 t
  exact ⟨this.2.2.2, this.2.2.1⟩

theorem contTracking_T : 0 < contTracking.1.T := by norm_num [contTracking, linGetCLQTTF]

theorem contTracking_X (t : ℝ) : IsPSD (contTracking.1.X t) := by
  unfold contTracking
  rw [C74_continuous.1]
  obtain ⟨h1, h2, -⟩ := C74_continuous.2.2.2.2.2.1 t
  exact ⟨h2, fun x => by
    by_cases hx : x = 0
    · subst hx
      simp
    · exact (h1 x hx).le⟩

theorem contTracking_XT : IsPSD contTracking.1.XT := by
  unfold contTracking
  rw [C74_continuous.1]
  obtain ⟨h1, h2⟩ := C74_continuous.2.2.2.2.2.2
  exact ⟨h2, fun x => by
    by_cases hx : x = 0
    · subst hx
      simp
    · exact (h1 x hx).le⟩

theorem contTracking_contData : contTracking.1.ContData 0 contTracking.1.T where
  F := fun _ _ => continuousOn_const
  L := fun _ _ => continuousOn_const
  X := fun _ _ => continuousOn_const
  U := fun _ _ => continuousOn_const
  c := fun _ => continuousOn_const
  H := fun _ _ => continuousOn_const
  r := by
    intro i
    have h : ∀ c, Continuous (linRefCTF c) := by
      intro c
      unfold linRefCTF
      fun_prop
    change ContinuousOn (fun t => (![linRefCTF linCxTF t, linRefCTF linCyTF t] : Fin 2 → ℝ) i) _
    revert i
    refine Fin.forall_fin_two.2 ⟨?_, ?_⟩
    · exact (h linCxTF).continuousOn
    · exact (h linCyTF).continuousOn
  sym := fun t _ => (contTracking_U t).1
  pos := fun t _ => (contTracking_U t).2

/-! ### Tests and files -/

theorem runTests_rows (mask : ℤ) (write : List Char → List ExpRow → ExpLog) (rows : ℕ → List ExpRow) (e : ExpErr) (bad : List ExpTest)
    (hb : ∀ t ∈ bad, mask / 2 ^ t.bit % 2 = 1 → t.run = .error e) : ∀ good : List ExpTest,
    (∀ t ∈ good, mask / 2 ^ t.bit % 2 = 1 → t.run = .ok (rows t.bit)) →
    runTests mask write (good ++ bad) =
      (((good.map fun t => (t.id, t.bit)).filter fun p => mask / 2 ^ p.2 % 2 = 1).flatMap (fun p => write p.1 (rows p.2)),
        if ∃ t ∈ bad, mask / 2 ^ t.bit % 2 = 1 then some e else none)
  | [], _ => by
    simp only [List.nil_append, List.map_nil, List.filter_nil, List.flatMap_nil]
    induction bad with
    | nil => simp [runTests]
    | cons t ts ih =>
      by_cases ht : mask / 2 ^ t.bit % 2 = 1
      · rw [runTests, if_pos ((land_two_pow _ _).2 ht), hb t List.mem_cons_self ht, if_pos ⟨t, List.mem_cons_self, ht⟩]
      · rw [runTests, if_neg (fun h' => ht ((land_two_pow _ _).1 h')), ih fun s hs => hb s (List.mem_cons_of_mem _ hs)]
        simp only [List.mem_cons, exists_eq_or_imp, ht, false_or]
  | t :: ts, hg => by
    have ih := runTests_rows mask write rows e bad hb ts fun s hs => hg s (List.mem_cons_of_mem _ hs)
    rw [List.cons_append, List.map_cons]
    by_cases ht : mask / 2 ^ t.bit % 2 = 1
    · rw [runTests, if_pos ((land_two_pow _ _).2 ht), hg t List.mem_cons_self ht, ih, List.filter_cons_of_pos (by simpa using ht),
        List.flatMap_cons]
    · rw [runTests, if_neg (fun h' => ht ((land_two_pow _ _).1 h')), ih, List.filter_cons_of_neg (by simpa using ht)]

theorem contTest_ok {Bs : List ℕ} {test : ℕ → Py ℝ} (err : ℕ → ℝ) (h : ∀ B ∈ Bs, test B = .ok (err B)) :
    contTest Bs test = .ok (Bs.map fun B : ℕ => ⟨[(B : ℤ), 4], [(err B : WithBot ℝ)]⟩) := by
  induction Bs with
  | nil => rfl
  | cons B Bs ih =>
    unfold contTest at ih ⊢
    rw [List.mapM_cons, ih fun b hb => h b (List.mem_cons_of_mem _ hb), h B List.mem_cons_self]
    rfl

theorem contTest_error {Bs : List ℕ} {test : ℕ → Py ℝ} {e : PyErr} (hB : Bs ≠ []) (h : ∀ B ∈ Bs, test B = .error e) :
    contTest Bs test = .error (.py e) := by
  cases Bs with
  | nil => exact absurd rfl hB
  | cons B Bs =>
    unfold contTest
    rw [List.mapM_cons, h B List.mem_cons_self]
    rfl

/-- The reported error of test `i`. -/
noncomputable def contErr (scan : AScan) (P : CLQT 4 2 ℝ × (Fin 4 → ℝ)) (steps niter i B : ℕ) : Py ℝ :=
  match i with
  | 0 => P.1.seqBwSpeed P.2 B steps 10
  | 1 => P.1.seqBwFwSpeed P.2 B steps 10
  | 2 => P.1.parBwSpeed scan P.2 B steps 10
  | 3 => P.1.parBwFwSpeed scan P.2 B steps 10
  | 4 => P.1.parBwFwBwSpeed scan P.2 B steps 10
  | 5 => P.1.prBwSpeed P.2 B steps niter 10
  | 6 => P.1.prBwFwSpeed P.2 B steps niter 10
  | _ => P.1.prBwFwBwSpeed P.2 B steps niter 10

/-- The value of a completed computation. -/
def okVal (x : Py ℝ) : ℝ :=
  match x with
  | .ok v => v
  | .error _ => 0

theorem okVal_ok {x : Py ℝ} {v : ℝ} (h : x = .ok v) : x = .ok (okVal x) := by
  subst h
  rfl

theorem okVal_eq {x : Py ℝ} {v : ℝ} (h : x = .ok v) : okVal x = v := by
  subst h
  rfl

open Classical in
theorem contTests_rows (mask : ℤ) (write : List Char → List ExpRow → ExpLog) (scan : AScan) (P : CLQT 4 2 ℝ × (Fin 4 → ℝ)) (Bs : List ℕ)
    (steps niter : ℕ) (n niterD : ℤ) (k : ℕ) (hk : k ≤ 8) (e : PyErr)
    (h : ∀ i < k, mask / 2 ^ i % 2 = 1 → ∀ B ∈ Bs, ∃ e, contErr scan P steps niter i B = .ok e)
    (hb : ∀ i < 8, k ≤ i → mask / 2 ^ i % 2 = 1 → Bs ≠ [] ∧ ∀ B ∈ Bs, contErr scan P steps niter i B = .error e) :
    runTests mask write (contTests scan P Bs steps niter n niterD) =
      ((((contTests scan P Bs steps niter n niterD).take k).map fun t => (t.id, t.bit)).filter (fun p => mask / 2 ^ p.2 % 2 = 1) |>.flatMap
        fun p => write p.1 (Bs.map fun B : ℕ => ⟨[(B : ℤ), 4], [(okVal (contErr scan P steps niter p.2 B) : WithBot ℝ)]⟩),
        if ∃ i < 8, k ≤ i ∧ mask / 2 ^ i % 2 = 1 then some (.py e) else none) := by
  set l := contTests scan P Bs steps niter n niterD with hl
  have hlen : l.length = 8 := rfl
  have hbit : ∀ i t, l[i]? = some t → t.bit = i ∧ i < 8 := fun i t ht => by
    obtain ⟨h1, h2, -⟩ := contTests_id ht
    exact ⟨h2, h1⟩
  have hrun : ∀ i t, l[i]? = some t → t.run = contTest Bs (contErr scan P steps niter i) := by
    intro i t ht
    have hi := (hbit i t ht).2
    interval_cases i <;> cases ht <;> rfl
  have := runTests_rows mask write (fun i => Bs.map fun B : ℕ => ⟨[(B : ℤ), 4], [(okVal (contErr scan P steps niter i B) : WithBot ℝ)]⟩)
    (.py e) (l.drop k) ?_ (l.take k) ?_
  · rw [List.take_append_drop] at this
    rw [this]
    congr 1
    have hiff : (∃ t ∈ l.drop k, mask / 2 ^ t.bit % 2 = 1) ↔ ∃ i < 8, k ≤ i ∧ mask / 2 ^ i % 2 = 1 := by
      constructor
      · rintro ⟨t, ht, hm⟩
        obtain ⟨j, hj⟩ := List.mem_iff_getElem?.1 ht
        rw [List.getElem?_drop] at hj
        obtain ⟨g1, g2⟩ := hbit _ _ hj
        exact ⟨k + j, g2, by omega, g1 ▸ hm⟩
      · rintro ⟨i, hi, hki, hm⟩
        have hg : l[i]? = some (l[i]'(by omega)) := List.getElem?_eq_getElem (by omega)
        refine ⟨l[i]'(by omega), List.mem_iff_getElem?.2 ⟨i - k, ?_⟩, ?_⟩
        · rw [List.getElem?_drop, show k + (i - k) = i by omega, hg]
        · rw [(hbit _ _ hg).1]
          exact hm
    by_cases hx : ∃ i < 8, k ≤ i ∧ mask / 2 ^ i % 2 = 1
    · rw [if_pos hx, if_pos (hiff.2 hx)]
    · rw [if_neg hx, if_neg fun h' => hx (hiff.1 h')]
  · intro t ht hm
    obtain ⟨j, hj⟩ := List.mem_iff_getElem?.1 ht
    rw [List.getElem?_drop] at hj
    obtain ⟨g1, g2⟩ := hbit _ _ hj
    rw [hrun _ _ hj]
    obtain ⟨b1, b2⟩ := hb (k + j) g2 (by omega) (g1 ▸ hm)
    exact contTest_error b1 b2
  · intro t ht hm
    obtain ⟨j, hj⟩ := List.mem_iff_getElem?.1 ht
    rw [List.getElem?_take] at hj
    split_ifs at hj with hjk
    obtain ⟨g1, g2⟩ := hbit _ _ hj
    rw [hrun _ _ hj, g1]
    exact contTest_ok (fun B => okVal (contErr scan P steps niter j B)) fun B hB => by
      obtain ⟨e, he⟩ := h j hjk (g1 ▸ hm) B hB
      exact okVal_ok he

theorem hjbTest_ok {Bs : List ℕ} {n : ℕ} {test : ℕ → Py (WithBot ℝ × WithBot ℝ)} (err : ℕ → WithBot ℝ × WithBot ℝ)
    (h : ∀ B ∈ Bs, test B = .ok (err B)) :
    hjbTest Bs n test = .ok (Bs.map fun B : ℕ => ⟨[(B : ℤ), (n : ℤ)], [(err B).1, (err B).2]⟩) := by
  induction Bs with
  | nil => rfl
  | cons B Bs ih =>
    unfold hjbTest at ih ⊢
    rw [List.mapM_cons, ih fun b hb => h b (List.mem_cons_of_mem _ hb), h B List.mem_cons_self]
    rfl

theorem hjbTest_error {B : ℕ} {Bs : List ℕ} {n : ℕ} {test : ℕ → Py (WithBot ℝ × WithBot ℝ)} {e : PyErr} (h : test B = .error e) :
    hjbTest (B :: Bs) n test = .error (.py e) := by
  unfold hjbTest
  rw [List.mapM_cons, h]
  rfl

theorem contMain_eq (fl : List Char → Py ℝ) (scan : AScan) {args : List (List Char)} {c : Cfg}
    (h : parseArgs fl contKeys contDefaults args = .ok c) :
    ∃ model start stop num steps n niter single device mask, c.lookup "model".toList = some (.str model) ∧
      c.lookup "start".toList = some (.num start) ∧ c.lookup "stop".toList = some (.num stop) ∧
      c.lookup "num".toList = some (.int num) ∧ c.lookup "steps".toList = some (.int steps) ∧ c.lookup "n".toList = some (.int n) ∧
      c.lookup "niter".toList = some (.int niter) ∧
      c.lookup "single".toList = some (.int single) ∧ c.lookup "device".toList = some (.str device) ∧
      c.lookup "mask".toList = some (.int mask) ∧
      ∀ k s i : ℕ, num = k → (model ≠ "tracking".toList → contMain fl scan args = ([], some (.exit 1))) ∧
        (model = "tracking".toList → steps = s → niter = i → contMain fl scan args =
          runTests mask (writeTableCfg "tracking".toList (devTxt device single) c)
            (contTests scan contTracking (logspaceInt start stop k) s i n i)) := by
  have ht : CfgTyped contKeys c := parseArgs_typed h typed_cont
  obtain ⟨model, e1⟩ := typed_str ht (k := "model".toList) rfl
  obtain ⟨start, e2⟩ := typed_num ht (k := "start".toList) rfl
  obtain ⟨stop, e3⟩ := typed_num ht (k := "stop".toList) rfl
  obtain ⟨num, e4⟩ := typed_int ht (k := "num".toList) rfl
  obtain ⟨steps, e5⟩ := typed_int ht (k := "steps".toList) rfl
  obtain ⟨n, e6⟩ := typed_int ht (k := "n".toList) rfl
  obtain ⟨niter, e10⟩ := typed_int ht (k := "niter".toList) rfl
  obtain ⟨single, e7⟩ := typed_int ht (k := "single".toList) rfl
  obtain ⟨device, e8⟩ := typed_str ht (k := "device".toList) rfl
  obtain ⟨mask, e9⟩ := typed_int ht (k := "mask".toList) rfl
  refine ⟨model, start, stop, num, steps, n, niter, single, device, mask, e1, e2, e3, e4, e5, e6, e10, e7, e8, e9, ?_⟩
  rintro k s i rfl
  refine ⟨fun hm => ?_, ?_⟩
  · simp only [contMain, h, exp_ok_bind, getStr_eq e1, getNum_eq e2, getNum_eq e3, getInt_eq e4, getInt_eq e5, getInt_eq e6,
      getInt_eq e10, getInt_eq e7, getStr_eq e8, getInt_eq e9, natArg_nat, if_pos hm]
    rfl
  · rintro rfl rfl rfl
    simp only [contMain, h, exp_ok_bind, getStr_eq e1, getNum_eq e2, getNum_eq e3, getInt_eq e4, getInt_eq e5, getInt_eq e6,
      getInt_eq e10, getInt_eq e7, getStr_eq e8, getInt_eq e9, natArg_nat, ne_eq, not_true_eq_false, if_false]
    rfl

theorem hjbMain_eq (fl : List Char → Py ℝ) (scan : AScan) {args : List (List Char)} {c : Cfg}
    (h : parseArgs fl hjbKeys hjbDefaults args = .ok c) :
    ∃ model start stop num steps n single device mask, c.lookup "model".toList = some (.str model) ∧
      c.lookup "start".toList = some (.num start) ∧ c.lookup "stop".toList = some (.num stop) ∧
      c.lookup "num".toList = some (.int num) ∧ c.lookup "steps".toList = some (.int steps) ∧ c.lookup "n".toList = some (.int n) ∧
      c.lookup "single".toList = some (.int single) ∧ c.lookup "device".toList = some (.str device) ∧
      c.lookup "mask".toList = some (.int mask) ∧
      ∀ k s g : ℕ, num = k → steps = s → n = (g + 2 : ℕ) → hjbMain fl scan args =
        runTests mask (writeTableCfg model (devTxt device single) c)
          (hjbTests scan (velocityModel (g + 2) (g + 2) : CModel (g + 2) (g + 2) ℝ) (logspaceInt start stop k) s) := by
  have ht : CfgTyped hjbKeys c := parseArgs_typed h typed_hjb
  obtain ⟨model, e1⟩ := typed_str ht (k := "model".toList) rfl
  obtain ⟨start, e2⟩ := typed_num ht (k := "start".toList) rfl
  obtain ⟨stop, e3⟩ := typed_num ht (k := "stop".toList) rfl
  obtain ⟨num, e4⟩ := typed_int ht (k := "num".toList) rfl
  obtain ⟨steps, e5⟩ := typed_int ht (k := "steps".toList) rfl
  obtain ⟨n, e6⟩ := typed_int ht (k := "n".toList) rfl
  obtain ⟨single, e7⟩ := typed_int ht (k := "single".toList) rfl
  obtain ⟨device, e8⟩ := typed_str ht (k := "device".toList) rfl
  obtain ⟨mask, e9⟩ := typed_int ht (k := "mask".toList) rfl
  refine ⟨model, start, stop, num, steps, n, single, device, mask, e1, e2, e3, e4, e5, e6, e7, e8, e9, ?_⟩
  rintro k s g rfl rfl rfl
  simp only [hjbMain, h, exp_ok_bind, getStr_eq e1, getNum_eq e2, getNum_eq e3, getInt_eq e4, getInt_eq e5, getInt_eq e6,
    getInt_eq e7, getStr_eq e8, getInt_eq e9, natArg_nat, (C84_model (g + 2) (g + 2)).1 (by omega) (by omega)]
  rfl

end Verif
