import Verif.Proof.Viterbi
import Verif.Proof.FSCPar
import Verif.Model.ViterbiTF
import Mathlib.Tactic.Abel

/-! Viterbi decoding with an arbitrary choice of minimisers, and the TensorFlow passes. -/

namespace Verif

variable {n q : ℕ} {P K : Type}

/-! ### Lists -/

theorem accList_snoc {S Y : Type} (g : S → Y → S) (V : S) (ys : List Y) (y : Y) :
    accList g V (ys ++ [y]) = accList g V ys ++ [g (ys.foldl g V) y] := by
  induction ys generalizing V with
  | nil => rfl
  | cons z ys ih => simp only [List.cons_append, accList, List.foldl_cons, ih]

theorem accList_reverse_head {S Y : Type} (g : S → Y → S) (V : S) (ys : List Y) :
    ∃ l, (accList g V ys).reverse = ys.foldl g V :: l := by
  rcases List.eq_nil_or_concat ys with h | ⟨zs, w, h⟩
  · subst h; exact ⟨[], rfl⟩
  · have h : ys = zs ++ [w] := by simpa using h
    subst h
    rw [accList_snoc]
    exact ⟨(accList g V zs).reverse, by simp⟩

/-- Backtracking is the reversed list of states obtained by applying the policies from the last one on. -/
theorem backFold_eq (us : List (Fin n → Fin n)) (x : Fin n) :
    backFold us [x] = (accList (fun x (u : Fin n → Fin n) => u x) x us.reverse).reverse := by
  induction us with
  | nil => rfl
  | cons u us ih =>
    rw [backFold_cons, ih, List.reverse_cons, accList_snoc]
    obtain ⟨l, hl⟩ := accList_reverse_head (fun x (u : Fin n → Fin n) => u x) x us.reverse
    rw [hl, List.reverse_append, hl]
    rfl

theorem backFold_length (us : List (Fin n → Fin n)) (x : Fin n) : (backFold us [x]).length = us.length + 1 := by
  rw [backFold_eq, List.length_reverse, accList_length, List.length_reverse]

/-! ### Path values -/

section Gen
variable [CommSemiring P] [LinearOrder P] [AddCommMonoid K] [LinearOrder K] [NeZero n]
  {S : P → Prop} {nl : P → K}

/-- Policies of the log recursion with minimisers chosen by `am`. -/
def HMM.amPols (am : (Fin n → K) → Fin n) (nl : P → K) (H : HMM n q P) :
    (Fin n → K) → List (Fin q) → List (Fin n → Fin n)
  | _, [] => []
  | V, y :: ys => (fun x => am fun j => H.logTemp nl V y j x) :: H.amPols am nl (H.logStep nl V y) ys

omit [CommSemiring P] [LinearOrder P] in
theorem logPols_eq_amPols (H : HMM n q P) (V : Fin n → K) (ys : List (Fin q)) :
    H.logPols nl V ys = H.amPols argmin1 nl V ys := by
  induction ys generalizing V with
  | nil => rfl
  | cons y ys ih => simp only [HMM.logPols, HMM.amPols, ih]

omit [CommSemiring P] [LinearOrder P] in
theorem amPols_length (am : (Fin n → K) → Fin n) (H : HMM n q P) (V : Fin n → K) (ys : List (Fin q)) :
    (H.amPols am nl V ys).length = ys.length := by
  induction ys generalizing V with
  | nil => rfl
  | cons y ys ih => simp only [HMM.amPols, List.length_cons, ih]

theorem IsArgmin.val {am : (Fin n → K) → Fin n} (h : IsArgmin am) (v : Fin n → K) : v (am v) = min1 v :=
  le_antisymm (le_min1 (h v)) (min1_le v _)

theorem isArgmin_argmin1 : IsArgmin (argmin1 : (Fin n → K) → Fin n) := argmin1_le

/-- Backtracking from any end state gives a path attaining the value of that state. -/
theorem backFold_value {am : (Fin n → K) → Fin n} (ham : IsArgmin am) (h : IsNegLog S nl) {H : HMM n q P}
    (hH : H.All S) (ys : List (Fin q)) (V : Fin n → P) (hV : ∀ x, S (V x)) (xT : Fin n) :
    ∃ x r, backFold (H.amPols am nl (fun x => nl (V x)) ys) [xT] = x :: r ∧ r.length = ys.length ∧
      (x :: r).getLast? = some xT ∧
      nl (V x * H.tailProb x ys r) = ys.foldl (H.logStep nl) (fun x => nl (V x)) xT := by
  induction ys generalizing V with
  | nil => exact ⟨xT, [], rfl, rfl, rfl, by simp [HMM.tailProb]⟩
  | cons y ys ih =>
    obtain ⟨x, r, h1, h2, h3, h4⟩ := ih (H.refStep V y) (refStep_mem h hH hV y)
    set b := am fun j => H.logTemp nl (fun x => nl (V x)) y j x with hb
    refine ⟨b, x :: r, ?_, by simp [h2], by simpa using h3, ?_⟩
    · simp only [HMM.amPols]
      rw [backFold_cons, logStep_nl h hH hV, h1]
    · rw [List.foldl_cons, logStep_nl h hH hV, ← h4]
      have hs := refStep_mem h hH hV y x
      have ht := tailProb_mem h hH x ys r
      rw [h.nl_mul hs ht]
      have hval : nl (H.refStep V y x) = H.logTemp nl (fun x => nl (V x)) y b x := by
        have := congrFun (logStep_nl h hH hV y) x
        rw [← this]
        exact (ham.val _).symm
      simp only [HMM.tailProb]
      rw [hval, h.nl_mul (hV b) (h.mul (h.mul (hH.Pi _ _) (hH.Po _ _)) ht), h.nl_mul (h.mul (hH.Pi _ _) (hH.Po _ _)) ht,
        h.nl_mul (hH.Pi _ _) (hH.Po _ _)]
      unfold HMM.logTemp
      abel

/-- No path ending in `xT` costs less than the value of `xT`. -/
theorem logStep_le [IsOrderedAddMonoid K] (h : IsNegLog S nl) {H : HMM n q P}
    (hH : H.All S) (ys : List (Fin q)) (V : Fin n → P) (hV : ∀ x, S (V x)) (z : Fin n) (zs : List (Fin n)) (xT : Fin n)
    (hl : zs.length = ys.length) (hx : (z :: zs).getLast? = some xT) :
    ys.foldl (H.logStep nl) (fun x => nl (V x)) xT ≤ nl (V z * H.tailProb z ys zs) := by
  induction ys generalizing V z zs with
  | nil =>
    obtain rfl : zs = [] := by simpa using hl
    obtain rfl : z = xT := by simpa using hx
    simp [HMM.tailProb]
  | cons y ys ih =>
    cases zs with
    | nil => simp at hl
    | cons w zs =>
      rw [List.foldl_cons, logStep_nl h hH hV]
      refine (ih _ (refStep_mem h hH hV y) w zs (by simpa using hl) (by simpa using hx)).trans ?_
      have ht := tailProb_mem h hH w ys zs
      rw [h.nl_mul (refStep_mem h hH hV y w) ht]
      simp only [HMM.tailProb]
      rw [h.nl_mul (hV z) (h.mul (h.mul (hH.Pi _ _) (hH.Po _ _)) ht), h.nl_mul (h.mul (hH.Pi _ _) (hH.Po _ _)) ht,
        h.nl_mul (hH.Pi _ _) (hH.Po _ _)]
      have hval : nl (H.refStep V y w) ≤ H.logTemp nl (fun x => nl (V x)) y z w := by
        rw [← congrFun (logStep_nl h hH hV y) w]
        exact min1_le _ z
      refine (add_le_add_left hval _).trans (le_of_eq ?_)
      unfold HMM.logTemp
      abel

omit [LinearOrder P] [NeZero n] in
theorem tailProb_append (H : HMM n q P) (a b : List (Fin q)) (x : Fin n) (xs zs : List (Fin n)) (z : Fin n)
    (hl : xs.length = a.length) (hz : (x :: xs).getLast? = some z) :
    H.tailProb x (a ++ b) (xs ++ zs) = H.tailProb x a xs * H.tailProb z b zs := by
  induction a generalizing x xs with
  | nil =>
    obtain rfl : xs = [] := by simpa using hl
    obtain rfl : x = z := by simpa using hz
    simp [HMM.tailProb]
  | cons y a ih =>
    cases xs with
    | nil => simp at hl
    | cons w xs =>
      simp only [List.cons_append, HMM.tailProb]
      rw [ih w xs (by simpa using hl) (by simpa using hz), mul_assoc (H.Pi x w * H.Po w y)]

omit [LinearOrder P] [NeZero n] in
theorem jointProb_append (H : HMM n q P) (a b : List (Fin q)) (xs zs : List (Fin n)) (z : Fin n)
    (hl : xs.length = a.length + 1) (hz : xs.getLast? = some z) :
    H.jointProb (a ++ b) (xs ++ zs) = H.jointProb a xs * H.tailProb z b zs := by
  cases xs with
  | nil => simp at hl
  | cons x xs =>
    simp only [List.cons_append, HMM.jointProb]
    rw [tailProb_append H a b x xs zs z (by simpa using hl) hz, mul_assoc]

/-- The prior in logarithms. -/
abbrev HMM.nlPrior (nl : P → K) (H : HMM n q P) : Fin n → K := fun x => nl (H.prior x)

/-- Backtracking from a best end state gives a maximum a posteriori path. -/
theorem backFold_isMAP [IsOrderedAddMonoid K] {am : (Fin n → K) → Fin n} (ham : IsArgmin am) (h : IsNegLog S nl)
    {H : HMM n q P} (hH : H.All S) (ys : List (Fin q)) :
    H.IsMAP ys (backFold (H.amPols am nl (H.nlPrior nl) ys) [am (ys.foldl (H.logStep nl) (H.nlPrior nl))]) := by
  obtain ⟨x, r, h1, h2, _, h4⟩ := backFold_value ham h hH ys H.prior hH.prior
    (am (ys.foldl (H.logStep nl) (H.nlPrior nl)))
  rw [h1]
  refine ⟨by simp [h2], fun xs' hl => ?_⟩
  cases xs' with
  | nil => simp at hl
  | cons z zs =>
    obtain ⟨w, hw⟩ : ∃ w, (z :: zs).getLast? = some w := ⟨_, List.getLast?_eq_getLast_of_ne_nil (by simp)⟩
    have h5 := logStep_le h hH ys H.prior hH.prior z zs w (by simpa using hl) hw
    rw [← h.nl_le (jointProb_mem h hH _ _) (jointProb_mem h hH _ _)]
    refine le_trans ?_ h5
    refine (le_of_eq h4).trans (ham _ _)

/-! ### Sequential TensorFlow passes -/

omit [CommSemiring P] [LinearOrder P] in
theorem tfSeqForward_eq (am : (Fin n → K) → Fin n) (H : HMM n q P) (ys : List (Fin q)) :
    H.tfSeqForward am nl ys = (H.amPols am nl (H.nlPrior nl) ys, accList (H.logStep nl) (H.nlPrior nl) ys) := by
  have key : ∀ (ys : List (Fin q)) (V : Fin n → K) (us : List (Fin n → Fin n)) (l : List (Fin n → K)),
      (ys.foldl (fun (st : (Fin n → K) × List (Fin n → Fin n) × List (Fin n → K)) y =>
        (H.logStep nl st.1 y, st.2.1 ++ [fun x => am fun j => H.logTemp nl st.1 y j x],
          st.2.2 ++ [H.logStep nl st.1 y])) (V, us, l)).2 =
      (us ++ H.amPols am nl V ys, l ++ (accList (H.logStep nl) V ys).tail) := by
    intro ys
    induction ys with
    | nil => intro V us l; simp [HMM.amPols, accList]
    | cons y ys ih =>
      intro V us l
      rw [List.foldl_cons, ih]
      have : accList (H.logStep nl) (H.logStep nl V y) ys =
          H.logStep nl V y :: (accList (H.logStep nl) (H.logStep nl V y) ys).tail := by
        cases ys <;> rfl
      simp only [HMM.amPols, accList, List.tail_cons, List.append_assoc, List.singleton_append]
      rw [← this]
  have := key ys (H.nlPrior nl) [] []
  simp only [List.nil_append] at this
  have hc : accList (H.logStep nl) (H.nlPrior nl) ys =
      H.nlPrior nl :: (accList (H.logStep nl) (H.nlPrior nl) ys).tail := by cases ys <;> rfl
  unfold HMM.tfSeqForward
  rw [hc]
  exact congrArg (fun r : List (Fin n → Fin n) × List (Fin n → K) => (r.1, H.nlPrior nl :: r.2)) this

theorem tfSeqBackward_eq (am : (Fin n → K) → Fin n) (us : List (Fin n → Fin n)) (VT : Fin n → K) :
    tfSeqBackward am us VT = backFold us [am VT] := by
  have key : ∀ us : List (Fin n → Fin n), ∃ r,
      (us.foldr (fun u (st : Fin n × List (Fin n)) => (u st.1, u st.1 :: st.2)) (am VT, [])).2 ++ [am VT] =
        (us.foldr (fun u (st : Fin n × List (Fin n)) => (u st.1, u st.1 :: st.2)) (am VT, [])).1 :: r ∧
      backFold us [am VT] =
        (us.foldr (fun u (st : Fin n × List (Fin n)) => (u st.1, u st.1 :: st.2)) (am VT, [])).2 ++ [am VT] := by
    intro us
    induction us with
    | nil => exact ⟨[], rfl, rfl⟩
    | cons u us ih =>
      obtain ⟨r, h1, h2⟩ := ih
      simp only [List.foldr_cons]
      refine ⟨_, rfl, ?_⟩
      rw [backFold_cons, h2, h1, List.cons_append, h1]
  exact (key us).choose_spec.2.symm

omit [CommSemiring P] [LinearOrder P] in
theorem tfSeqFwBw_eq (am : (Fin n → K) → Fin n) (H : HMM n q P) (ys : List (Fin q)) :
    H.tfSeqFwBw am nl ys = .ok (backFold (H.amPols am nl (H.nlPrior nl) ys)
      [am (ys.foldl (H.logStep nl) (H.nlPrior nl))], accList (H.logStep nl) (H.nlPrior nl) ys) := by
  unfold HMM.tfSeqFwBw
  simp only [tfSeqForward_eq, accList_getLast, tfSeqBackward_eq]

/-! ### Parallel TensorFlow passes -/

omit [CommSemiring P] [LinearOrder P] in
theorem foldl_tfElem [IsOrderedAddMonoid K] (H : HMM n q P) (ys : List (Fin q)) (V : Fin n → K) :
    (ys.map (H.tfElem nl)).foldl combineV (fun _ x => V x) = fun _ x => ys.foldl (H.logStep nl) V x := by
  induction ys generalizing V with
  | nil => rfl
  | cons y ys ih =>
    rw [List.map_cons, List.foldl_cons, List.foldl_cons, ← ih]
    congr 1
    funext _ x
    unfold combineV HMM.tfElem HMM.logStep HMM.logTemp
    congr 1
    funext j
    rw [add_comm (nl (H.Po x y)), add_comm (V j)]

/-- Scanning with `combine_V` gives the left folds of all prefixes. -/
theorem tfScan_combineV [IsOrderedAddMonoid K]
    {scan : ((Fin n → Fin n → K) → (Fin n → Fin n → K) → Py (Fin n → Fin n → K)) →
      List (Fin n → Fin n → K) → Py (List (Fin n → Fin n → K))} (hs : IsAssocScan scan)
    (l : List (Fin n → Fin n → K)) (hne : l ≠ []) :
    ∃ r, scan (fun x y => .ok (combineV x y)) l = .ok r ∧ r.length = l.length ∧
      ∀ k < l.length, r[k]? = foldl1 combineV (l.take (k + 1)) := by
  obtain ⟨r, hr⟩ := hs.total (op := fun x y => .ok (combineV x y)) (l := l) (fun _ => True)
    (fun _ _ _ _ => ⟨_, rfl, trivial⟩) hne (fun _ _ => trivial)
  obtain ⟨h1, h2⟩ := hs.pref hr
  refine ⟨r, hr, h1, fun k hk => ?_⟩
  obtain ⟨v, hv, hp⟩ := h2 k hk
  rw [hv, ← paren_combineV hp]
  exact foldr1_eq_foldl1 (P := fun _ => True) (fun _ _ _ _ => trivial)
    (fun x y z _ _ _ => combineV_assoc x y z) (fun _ _ => trivial)

omit [CommSemiring P] [LinearOrder P] in
theorem amPols_get (am : (Fin n → K) → Fin n) (H : HMM n q P) (V : Fin n → K) (ys : List (Fin q)) (k : ℕ)
    (hk : k < ys.length) : (H.amPols am nl V ys)[k]? =
      some (fun x => am fun j => H.logTemp nl ((ys.take k).foldl (H.logStep nl) V) ys[k] j x) := by
  induction ys generalizing V k with
  | nil => simp at hk
  | cons y ys ih =>
    cases k with
    | zero => rfl
    | succ k =>
      simp only [HMM.amPols, List.getElem?_cons_succ, List.take_succ_cons, List.foldl_cons, List.getElem_cons_succ]
      exact ih _ k (by simpa using hk)

omit [CommSemiring P] [LinearOrder P] in
theorem tfParForward_eq [IsOrderedAddMonoid K]
    {scan : ((Fin n → Fin n → K) → (Fin n → Fin n → K) → Py (Fin n → Fin n → K)) →
      List (Fin n → Fin n → K) → Py (List (Fin n → Fin n → K))} (hs : IsAssocScan scan)
    (am : (Fin n → K) → Fin n) (H : HMM n q P) (ys : List (Fin q)) :
    H.tfParForward scan am nl ys = .ok (H.tfSeqForward am nl ys) := by
  obtain ⟨r, hr, hl, hg⟩ := tfScan_combineV hs (H.tfParForwardInit nl ys) (by simp [HMM.tfParForwardInit])
  have hlen : (H.tfParForwardInit nl ys).length = ys.length + 1 := by simp [HMM.tfParForwardInit]
  have hVs : r.map (fun e => e 0) = accList (H.logStep nl) (H.nlPrior nl) ys := by
    apply list_ext_of (n := ys.length + 1) (by simp [hl, hlen]) (accList_length _ _ _)
    intro k hk
    rw [List.getElem?_map, hg k (by omega), accList_get _ _ _ _ (by omega)]
    have : (H.tfParForwardInit nl ys).take (k + 1) =
        (fun _ x => H.nlPrior nl x) :: (ys.take k).map (H.tfElem nl) := by
      simp [HMM.tfParForwardInit, List.map_take]
    rw [this]
    simp only [foldl1, foldl_tfElem, Option.map_some]
  rw [tfSeqForward_eq]
  unfold HMM.tfParForward
  simp only [hr]
  have hus : (List.zipWith (fun (L : Fin n → Fin n → K) (V : Fin n → K) => fun j x => L j x + V j)
      (H.tfParForwardInit nl ys).tail
      (r.map (fun e => e 0)).dropLast).map (fun Vu x => am fun j => Vu j x) = H.amPols am nl (H.nlPrior nl) ys := by
    rw [hVs]
    apply list_ext_of (n := ys.length) _ (amPols_length _ _ _ _)
    · intro k hk
      rw [amPols_get am H _ ys k hk, List.getElem?_map, List.getElem?_zipWith]
      have h1 : (H.tfParForwardInit nl ys).tail[k]? = some (H.tfElem nl ys[k]) := by
        simp [HMM.tfParForwardInit, hk]
      have h2 : (accList (H.logStep nl) (H.nlPrior nl) ys).dropLast[k]? =
          some ((ys.take k).foldl (H.logStep nl) (H.nlPrior nl)) := by
        rw [List.getElem?_dropLast, accList_length, if_pos (by omega), accList_get _ _ _ _ hk.le]
      rw [h1, h2]
      simp only [Option.map_some]
      congr 1
      funext x
      congr 1
      funext j
      unfold HMM.tfElem HMM.logTemp
      rw [add_comm (nl (H.Po x ys[k]))]
    · simp [HMM.tfParForwardInit, accList_length]
  show Except.ok _ = _
  rw [hus, hVs]

theorem foldl1_combineF (x : Fin n) (us : List (Fin n → Fin n)) :
    foldl1 combineF ((fun _ => x) :: us) = some (fun _ => us.foldl (fun x u => u x) x) := by
  have : ∀ (us : List (Fin n → Fin n)) (x : Fin n), us.foldl combineF (fun _ => x) =
      fun _ => us.foldl (fun x u => u x) x := by
    intro us
    induction us with
    | nil => intro x; rfl
    | cons u us ih => intro x; rw [List.foldl_cons, List.foldl_cons, ← ih]; rfl
  simp only [foldl1, this]

theorem tfScan_combineF
    {scan : ((Fin n → Fin n) → (Fin n → Fin n) → Py (Fin n → Fin n)) →
      List (Fin n → Fin n) → Py (List (Fin n → Fin n))} (hs : IsAssocScan scan)
    (l : List (Fin n → Fin n)) (hne : l ≠ []) :
    ∃ r, scan (fun x y => .ok (combineF x y)) l = .ok r ∧ r.length = l.length ∧
      ∀ k < l.length, r[k]? = foldl1 combineF (l.take (k + 1)) := by
  obtain ⟨r, hr⟩ := hs.total (op := fun x y => .ok (combineF x y)) (l := l) (fun _ => True)
    (fun _ _ _ _ => ⟨_, rfl, trivial⟩) hne (fun _ _ => trivial)
  obtain ⟨h1, h2⟩ := hs.pref hr
  refine ⟨r, hr, h1, fun k hk => ?_⟩
  obtain ⟨v, hv, hp⟩ := h2 k hk
  rw [hv]
  exact (paren_foldl1 (P := fun _ => True) (g := combineF) (fun _ _ _ _ => rfl) (fun _ _ _ _ => trivial)
    (fun _ _ _ _ _ _ => rfl) hp (fun _ _ => trivial)).symm

theorem tfParBackward_eq
    {scan : ((Fin n → Fin n) → (Fin n → Fin n) → Py (Fin n → Fin n)) →
      List (Fin n → Fin n) → Py (List (Fin n → Fin n))} (hs : IsAssocScan scan)
    (am : (Fin n → K) → Fin n) (us : List (Fin n → Fin n)) (VT : Fin n → K) :
    tfParBackward scan am us VT = .ok (tfSeqBackward am us VT) := by
  have hrev : (us ++ [fun _ => am VT]).reverse = (fun _ => am VT) :: us.reverse := by simp
  obtain ⟨r, hr, hl, hg⟩ := tfScan_combineF hs ((fun _ => am VT) :: us.reverse) (by simp)
  unfold tfParBackward
  simp only [hrev, hr]
  show Except.ok _ = _
  rw [tfSeqBackward_eq, backFold_eq, List.map_reverse]
  congr 2
  apply list_ext_of (n := us.length + 1) (by simp [hl]) (by simp [accList_length])
  intro k hk
  rw [List.getElem?_map, hg k (by simpa using hk), accList_get _ _ _ _ (by simp; omega), List.take_succ_cons,
    foldl1_combineF]
  rfl

omit [CommSemiring P] [LinearOrder P] in
theorem tfParFwBw_eq [IsOrderedAddMonoid K]
    {scanV : ((Fin n → Fin n → K) → (Fin n → Fin n → K) → Py (Fin n → Fin n → K)) →
      List (Fin n → Fin n → K) → Py (List (Fin n → Fin n → K))} (hV : IsAssocScan scanV)
    {scanF : ((Fin n → Fin n) → (Fin n → Fin n) → Py (Fin n → Fin n)) →
      List (Fin n → Fin n) → Py (List (Fin n → Fin n))} (hF : IsAssocScan scanF)
    (am : (Fin n → K) → Fin n) (H : HMM n q P) (ys : List (Fin q)) :
    H.tfParFwBw scanV scanF am nl ys = H.tfSeqFwBw am nl ys ∧
    H.tfSeqParFwBw scanF am nl ys = H.tfSeqFwBw am nl ys := by
  have hl : (H.tfSeqForward am nl ys).2.getLast? = some (ys.foldl (H.logStep nl) (H.nlPrior nl)) := by
    rw [tfSeqForward_eq]; exact accList_getLast _ _ _
  constructor
  · unfold HMM.tfParFwBw HMM.tfSeqFwBw
    simp only [tfParForward_eq hV]
    have e : ∀ (r : List (Fin n → Fin n) × List (Fin n → K)) (VT : Fin n → K), r.2.getLast? = some VT →
        ((Except.ok r : Py _) >>= fun r => match r.2.getLast? with
          | none => throw PyErr.indexError
          | some VT => do
            let xs ← tfParBackward scanF am r.1 VT
            return (xs, r.2)) = .ok (tfSeqBackward am r.1 VT, r.2) := by
      intro r VT hr
      show (match r.2.getLast? with
          | none => throw PyErr.indexError
          | some VT => do
            let xs ← tfParBackward scanF am r.1 VT
            return (xs, r.2)) = _
      rw [hr]
      simp only [tfParBackward_eq hF]
      rfl
    rw [hl]
    exact e _ _ hl
  · unfold HMM.tfSeqParFwBw HMM.tfSeqFwBw
    simp only
    rw [hl]
    simp only [tfParBackward_eq hF]
    rfl

/-- Negative log probability of the best continuation. -/
def HMM.tailVal (nl : P → K) (H : HMM n q P) : List (Fin q) → Fin n → K
  | [] => fun _ => 0
  | y :: ys => fun x => min1 fun x' => H.tfElem nl y x x' + H.tailVal nl ys x'

omit [CommSemiring P] [LinearOrder P] in
theorem foldr1_tailVal (H : HMM n q P) (ys : List (Fin q)) :
    foldr1 combineV (ys.map (H.tfElem nl) ++ [fun _ _ => 0]) = some (fun x _ => H.tailVal nl ys x) := by
  induction ys with
  | nil => rfl
  | cons y ys ih =>
    simp only [List.map_cons, List.cons_append, foldr1]
    rw [ih]
    rfl

theorem tailVal_attained (h : IsNegLog S nl) {H : HMM n q P} (hH : H.All S) (ys : List (Fin q)) (x : Fin n) :
    ∃ zs, zs.length = ys.length ∧ nl (H.tailProb x ys zs) = H.tailVal nl ys x := by
  induction ys generalizing x with
  | nil => exact ⟨[], rfl, by simp [HMM.tailProb, HMM.tailVal, h.nl_one]⟩
  | cons y ys ih =>
    obtain ⟨w, hw⟩ := min1_attained (fun x' => H.tfElem nl y x x' + H.tailVal nl ys x')
    obtain ⟨zs, hl, hz⟩ := ih w
    refine ⟨w :: zs, by simp [hl], ?_⟩
    simp only [HMM.tailProb, HMM.tailVal]
    rw [hw, ← hz, h.nl_mul (h.mul (hH.Pi _ _) (hH.Po _ _)) (tailProb_mem h hH _ _ _), h.nl_mul (hH.Pi _ _) (hH.Po _ _)]
    rfl

theorem tailVal_le [IsOrderedAddMonoid K] (h : IsNegLog S nl) {H : HMM n q P} (hH : H.All S) (ys : List (Fin q)) (x : Fin n)
    (zs : List (Fin n)) (hl : zs.length = ys.length) : H.tailVal nl ys x ≤ nl (H.tailProb x ys zs) := by
  induction ys generalizing x zs with
  | nil => simp [HMM.tailProb, HMM.tailVal, h.nl_one]
  | cons y ys ih =>
    cases zs with
    | nil => simp at hl
    | cons w zs =>
      simp only [HMM.tailProb, HMM.tailVal]
      rw [h.nl_mul (h.mul (hH.Pi _ _) (hH.Po _ _)) (tailProb_mem h hH _ _ _), h.nl_mul (hH.Pi _ _) (hH.Po _ _)]
      refine (min1_le _ w).trans ?_
      exact add_le_add_right (ih w zs (by simpa using hl)) _

omit [CommSemiring P] [LinearOrder P] in
theorem tfParBwFw_eq [IsOrderedAddMonoid K]
    {scan : ((Fin n → Fin n → K) → (Fin n → Fin n → K) → Py (Fin n → Fin n → K)) →
      List (Fin n → Fin n → K) → Py (List (Fin n → Fin n → K))} (hs : IsAssocScan scan)
    (am : (Fin n → K) → Fin n) (H : HMM n q P) (ys : List (Fin q)) (Vs : List (Fin n → K)) :
    ∃ Vfs, H.tfParBwFw scan am nl ys Vs = .ok (Vfs.zipWith (fun Vf V => am fun x => Vf x + V x) Vs, Vfs) ∧
      Vfs.length = ys.length + 1 ∧ ∀ k ≤ ys.length, Vfs[k]? = some (H.tailVal nl (ys.drop k)) := by
  set elems := ys.map (H.tfElem nl) ++ [fun _ _ => (0 : K)] with hel
  have hlen : elems.length = ys.length + 1 := by simp [hel]
  obtain ⟨r, hr⟩ := hs.total (op := fun Vjk Vij => .ok (combineV Vij Vjk)) (l := elems.reverse) (fun _ => True)
    (fun _ _ _ _ => ⟨_, rfl, trivial⟩) (by simp [hel]) (fun _ _ => trivial)
  obtain ⟨h1, h2⟩ := hs.pref hr
  rw [List.length_reverse, hlen] at h1 h2
  refine ⟨r.reverse.map (fun e x => e x 0), ?_, by simp [h1], fun k hk => ?_⟩
  · unfold HMM.tfParBwFw
    simp only [← hel, hr]
    rfl
  · obtain ⟨v, hv, hp⟩ := h2 (ys.length - k) (by omega)
    have hp' := paren_swap hp
    rw [List.reverse_take, List.reverse_reverse, List.length_reverse, hlen] at hp'
    have e : ys.length + 1 - (ys.length - k + 1) = k := by omega
    rw [e] at hp'
    have h3 := paren_combineV hp'
    have e2 : elems.drop k = (ys.drop k).map (H.tfElem nl) ++ [fun _ _ => (0 : K)] := by
      rw [hel, List.drop_append_of_le_length (by simpa using hk), List.map_drop]
    rw [e2, foldr1_tailVal] at h3
    rw [List.getElem?_map, List.getElem?_reverse (by omega), h1]
    have e3 : ys.length + 1 - 1 - k = ys.length - k := by omega
    rw [e3, hv, ← h3]
    rfl

/-- Every state of the two-sided pass lies on a maximum a posteriori path. -/
theorem twoSided_isMAP [IsOrderedAddMonoid K] {am : (Fin n → K) → Fin n} (ham : IsArgmin am) (h : IsNegLog S nl)
    {H : HMM n q P} (hH : H.All S) (ys : List (Fin q)) (k : ℕ) (hk : k ≤ ys.length) :
    ∃ xs, H.IsMAP ys xs ∧ xs[k]? =
      some (am fun x => H.tailVal nl (ys.drop k) x + (ys.take k).foldl (H.logStep nl) (H.nlPrior nl) x) := by
  set w := am fun x => H.tailVal nl (ys.drop k) x + (ys.take k).foldl (H.logStep nl) (H.nlPrior nl) x with hw
  obtain ⟨x, r, _, h2, h3, h4⟩ := backFold_value ham h hH (ys.take k) H.prior hH.prior w
  obtain ⟨zs, hzl, hz⟩ := tailVal_attained h hH (ys.drop k) w
  have hrl : r.length = k := by rw [h2, List.length_take]; omega
  have hsplit : ys = ys.take k ++ ys.drop k := (List.take_append_drop k ys).symm
  have hval : nl (H.jointProb ys ((x :: r) ++ zs)) =
      H.tailVal nl (ys.drop k) w + (ys.take k).foldl (H.logStep nl) (H.nlPrior nl) w := by
    conv_lhs => rw [hsplit]
    rw [jointProb_append H _ _ (x :: r) zs w (by simp [h2]) h3,
      h.nl_mul (jointProb_mem h hH _ _) (tailProb_mem h hH _ _ _), hz, add_comm]
    congr 1
  refine ⟨(x :: r) ++ zs, ⟨?_, ?_⟩, ?_⟩
  · simp only [List.length_append, List.length_cons, hrl, hzl, List.length_drop]; omega
  · intro p hp
    rw [← h.nl_le (jointProb_mem h hH _ _) (jointProb_mem h hH _ _), hval]
    have hpl : (p.take (k + 1)).length = k + 1 := by rw [List.length_take]; omega
    obtain ⟨v, hv⟩ : ∃ v, (p.take (k + 1)).getLast? = some v := by
      cases hc : p.take (k + 1) with
      | nil => rw [hc] at hpl; simp at hpl
      | cons a as => exact ⟨_, List.getLast?_eq_getLast_of_ne_nil (by simp)⟩
    have hpe : H.jointProb ys p = H.jointProb (ys.take k) (p.take (k + 1)) * H.tailProb v (ys.drop k) (p.drop (k + 1)) := by
      rw [← jointProb_append H _ _ _ _ v (by rw [hpl, List.length_take]; omega) hv, List.take_append_drop,
        List.take_append_drop]
    rw [hpe, h.nl_mul (jointProb_mem h hH _ _) (tailProb_mem h hH _ _ _), add_comm (nl (H.jointProb _ _))]
    have h6 := ham (fun x => H.tailVal nl (ys.drop k) x + (ys.take k).foldl (H.logStep nl) (H.nlPrior nl) x) v
    refine h6.trans (add_le_add ?_ ?_)
    · exact tailVal_le h hH _ _ _ (by simp only [List.length_drop]; omega)
    · cases hc : p.take (k + 1) with
      | nil => rw [hc] at hpl; simp at hpl
      | cons a as =>
        rw [hc] at hv hpl
        exact logStep_le h hH _ H.prior hH.prior a as v
          (by rw [List.length_take]; simp only [List.length_cons] at hpl; omega) hv
  · rw [List.getElem?_append_left (by simp [hrl])]
    rw [List.getLast?_eq_getElem?] at h3
    simpa [hrl] using h3

end Gen

end Verif
