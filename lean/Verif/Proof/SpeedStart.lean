import Verif.Proof.SpeedContlin

/-! First state of the parallel forward-backward pass. -/

namespace Verif

open Matrix

variable {n m : ℕ} {K : Type} [Field K] [LinearOrder K]

theorem clqtTfCombine_head {bw : BwResult n m K} {fw : AbcResult n K} {b0 : Fin n → K} {bs : List (Fin n → K)}
    {Cs : List (Matrix (Fin n) (Fin n) K)} (hb : fw.b_list = b0 :: bs) (hC : fw.C_list = 0 :: Cs)
    {r : List (Fin n → K) × List (Fin m → K)} (h : clqtTfCombine bw fw = .ok r) : r.1[0]? = some b0 := by
  unfold clqtTfCombine at h
  split_ifs at h with hc
  · cases h
  · obtain ⟨ys, hys, h⟩ := bind_ok.1 (show (List.mapM _ _ >>= _) = _ from h)
    obtain rfl := Except.ok.inj h
    push Not at hc
    obtain ⟨h1, h2, -⟩ := hc
    rw [hC] at h1 h2
    obtain ⟨S, Ss, hS⟩ := List.exists_cons_of_length_eq_add_one h1
    obtain ⟨v, vs, hv⟩ := List.exists_cons_of_length_eq_add_one h2
    rw [hb, hC, hS, hv, List.zip_cons_cons, List.zip_cons_cons, List.zip_cons_cons, List.mapM_cons, bind_ok] at hys
    obtain ⟨y, hy, hys⟩ := hys
    obtain ⟨zs, -, hys⟩ := bind_ok.1 hys
    obtain rfl := Except.ok.inj hys
    simp only [zero_mul, add_zero, zero_mulVec] at hy
    have : y = b0 := by
      simpa using (solveV_ok.1 hy).2
    simp [this]

theorem CLQT.tfSeqFwdBwd_head {P : CLQT n m K} {steps : ℕ} {dt t0 : K} {A0 C0 : Matrix (Fin n) (Fin n) K} {b0 : Fin n → K} {r : AbcResult n K}
    (h : P.tfSeqFwdBwd steps dt t0 A0 b0 C0 = .ok r) : (∃ bs, r.b_list = b0 :: bs ∧ bs.length = steps) ∧ ∃ Cs, r.C_list = C0 :: Cs ∧ Cs.length = steps := by
  unfold CLQT.tfSeqFwdBwd at h
  obtain ⟨s, hs', h⟩ := bind_ok.1 h
  have hl' := tfScanFwdM_length _ _ _ hs'
  obtain rfl := Except.ok.inj h
  exact ⟨⟨_, rfl, by simp [hl', tfTimes]⟩, _, rfl, by simp [hl', tfTimes]⟩

theorem CLQT.tfParFwdBwd_head {P : CLQT n m K} {scan : (Elem n K → Elem n K → Py (Elem n K)) → List (Elem n K) → Py (List (Elem n K))}
    (hsc : IsAssocScan scan) {blocks steps : ℕ} (hs : 0 < steps) {x0 : Fin n → K} {bw : BwResult n m K} {dt t0 : K} {forward : Bool}
    {r : List (Fin n → K) × List (Fin m → K)} (h : P.tfParFwdBwd scan blocks steps x0 bw dt t0 forward = .ok r) : r.1[0]? = some x0 := by
  unfold CLQT.tfParFwdBwd at h
  obtain ⟨es, h1, ha⟩ := bind_ok.1 h
  obtain ⟨fs, h2, hb⟩ := bind_ok.1 ha
  clear h ha
  unfold CLQT.tfParFwdBwdInit at h1
  obtain ⟨es', -, h1'⟩ := bind_ok.1 h1
  obtain rfl := Except.ok.inj h1'
  obtain ⟨hlen, hp⟩ := hsc.pref h2
  obtain ⟨v, hv, hp⟩ := hp 0 (by simp)
  have hv' : v = ⟨0, x0, 0, 0, 0⟩ := by
    simp only [zero_add, List.take_succ_cons, List.take_zero] at hp
    generalize hl : [(⟨0, x0, 0, 0, 0⟩ : Elem n K)] = l at hp
    cases hp with
    | single x => simpa using hl.symm
    | node ha hb _ =>
      have h3 := congrArg List.length hl
      have h4 := List.length_pos_iff.2 ha.ne_nil
      have h5 := List.length_pos_iff.2 hb.ne_nil
      simp at h3
      omega
  subst hv'
  unfold CLQT.tfParFwdBwdExtract at hb
  obtain ⟨rs, hrs, h⟩ := bind_ok.1 hb
  obtain ⟨q, hq, h⟩ := bind_ok.1 h
  obtain ⟨AT, -, h⟩ := bind_ok.1 h
  obtain ⟨bT, -, h⟩ := bind_ok.1 h
  obtain ⟨CT, -, h⟩ := bind_ok.1 h
  obtain ⟨e, fs, rfl⟩ : ∃ e l, fs = e :: l := by
    cases fs with
    | nil => simp at hv
    | cons e l => exact ⟨e, l, rfl⟩
  obtain rfl : e = ⟨0, x0, 0, 0, 0⟩ := by simpa using hv
  cases fs with
  | nil =>
    have hrs' : rs = [] := by
      simp [pure, Except.pure] at hrs
      exact hrs
    rw [hrs'] at hq
    simp [pyLast] at hq
  | cons f fs =>
    simp only [List.length_cons, Nat.add_sub_cancel, List.dropLast_cons_cons, tfBlockTimes, List.range_succ_eq_map, List.map_cons,
      List.zip_cons_cons, List.mapM_cons, bind_ok] at hrs
    obtain ⟨r0, hr0, rs', -, hrs⟩ := hrs
    obtain rfl := Except.ok.inj hrs
    obtain ⟨⟨bs, hb, hbl⟩, Cs, hC, hCl⟩ := CLQT.tfSeqFwdBwd_head hr0
    obtain ⟨b1, bs, rfl⟩ := List.exists_cons_of_length_pos (by omega : 0 < bs.length)
    obtain ⟨C1, Cs, rfl⟩ := List.exists_cons_of_length_pos (by omega : 0 < Cs.length)
    exact clqtTfCombine_head (b0 := x0) (by simp only [List.map_cons, hb, List.dropLast_cons_cons, List.flatten_cons, List.cons_append]; rfl)
      (by simp only [List.map_cons, hC, List.dropLast_cons_cons, List.flatten_cons, List.cons_append]; rfl) h

end Verif
