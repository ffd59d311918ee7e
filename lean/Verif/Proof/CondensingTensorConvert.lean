import Verif.Proof.CondensingTensorTop

/-! Lemmas for `Verif.Props.CondensingTensor`: `convertUX`. -/

namespace Verif

open Matrix

variable {n m N : ℕ} {K : Type}

theorem flat_get {γ δ : Type} (g : γ → Fin N → δ) (i : Fin N) : ∀ (l : List γ) (k : ℕ) (hk : k < l.length),
    (l.flatMap fun y => List.ofFn (g y))[N * k + i.val]? = some (g l[k] i)
  | y :: l, 0, _ => by
    rw [List.flatMap_cons, List.getElem?_append_left (by simp)]
    simp
  | y :: l, k + 1, hk => by
    rw [List.flatMap_cons, List.getElem?_append_right (by simp [Nat.mul_add]; omega)]
    have : N * (k + 1) + i.val - (List.ofFn (g y)).length = N * k + i.val := by simp [Nat.mul_add]; omega
    rw [this]
    exact flat_get g i l k (by simpa using hk)

theorem flat_length {γ δ : Type} (g : γ → Fin N → δ) (l : List γ) : (l.flatMap fun y => List.ofFn (g y)).length = N * l.length := by
  simp [List.length_flatMap, Nat.mul_comm]

/-- Rows of `N` vectors cut into vectors. -/
theorem tensUnrows {a B : ℕ} {γ : Type} {t : Tens K} {l : List γ} {g : γ → Fin N × Fin a → K} (h : t.IsVt finProdFinEquiv l g)
    (hB : l.length = B) :
    ∃ r, t.reshape [N * B, a] = .ok r ∧ r.IsVt (Equiv.refl _) (l.flatMap fun y => List.ofFn fun (i : Fin N) x => g y (i, x)) fun x => x := by
  subst hB
  obtain ⟨s, v⟩ := t
  obtain ⟨h1, h2⟩ := h
  dsimp only at h1 h2
  subst h1
  have hp : [l.length, N * a].prod = [N * l.length, a].prod := by simp; ring
  have hlen := flat_length (fun y (i : Fin N) x => g y (i, x)) l
  refine ⟨_, if_pos hp, by rw [hlen], fun k hk x => ?_⟩
  rw [hlen] at hk
  have hN : 0 < N := Nat.pos_of_ne_zero fun h => by simp [h] at hk
  have hd : k / N < l.length := by rw [Nat.div_lt_iff_lt_mul hN, Nat.mul_comm]; exact hk
  have hk' : N * (k / N) + k % N = k := Nat.div_add_mod _ _
  have hi : k % N < N := Nat.mod_lt _ hN
  have hr : ravel [N * l.length, a] [k, x.val] = ravel [l.length, N * a] [k / N, (finProdFinEquiv (⟨k % N, hi⟩, x)).val] := by
    have : k * a = (N * (k / N) + k % N) * a := by rw [hk']
    simp [ravel, this]; ring
  have hg := flat_get (fun y (i : Fin N) x => g y (i, x)) ⟨k % N, hi⟩ l (k / N) hd
  simp only [hk'] at hg
  rw [List.getElem?_eq_getElem (by rw [hlen]; exact hk)] at hg
  rw [Option.some.inj hg]
  show v _ = _
  have hb := (finProdFinEquiv (⟨k % N, hi⟩, x) : Fin (N * a)).2
  erw [hr]
  rw [unravel_ravel (List.Forall₂.cons hd (List.Forall₂.cons hb .nil))]
  exact h2 (k / N) hd (⟨k % N, hi⟩, x)

theorem Tens.IsVt.take {a : ℕ} {γ : Type} {t : Tens K} {l : List γ} {g : γ → Fin a → K} (h : t.IsVt (Equiv.refl _) l g) (T : ℕ) :
    ∃ r, t.slice 0 0 T = .ok r ∧ r.IsVt (Equiv.refl _) (l.take T) g := by
  obtain ⟨s, v⟩ := t
  obtain ⟨h1, h2⟩ := h
  dsimp only at h1 h2
  subst h1
  refine ⟨_, rfl, by simp, fun k hk x => ?_⟩
  simp only [List.length_take] at hk
  simpa using h2 k (by omega) x

theorem Tens.IsVt.init {a : ℕ} {γ : Type} {t : Tens K} {l : List γ} {g : γ → Fin a → K} (h : t.IsVt (Equiv.refl _) l g) :
    ∃ r, t.init = .ok r ∧ r.IsVt (Equiv.refl _) l.dropLast g := by
  obtain ⟨s, v⟩ := t
  obtain ⟨h1, h2⟩ := h
  dsimp only at h1 h2
  subst h1
  refine ⟨_, rfl, by simp, fun k hk x => ?_⟩
  simp only [List.length_dropLast] at hk
  simpa using h2 k (by omega) x

theorem Tens.IsVt.lastRow {a : ℕ} {γ : Type} {t : Tens K} {l : List γ} {z : γ} {g : γ → Fin a → K} (h : t.IsVt (Equiv.refl _) l g)
    (hz : l.getLast? = some z) : ∃ q r, t.last = .ok q ∧ q.expandDims 0 = .ok r ∧ r.IsVt (Equiv.refl _) [z] g := by
  obtain ⟨s, v⟩ := t
  obtain ⟨h1, h2⟩ := h
  dsimp only at h1 h2
  obtain ⟨L, hL⟩ : ∃ L, l.length = L + 1 := by
    cases l with
    | nil => simp at hz
    | cons y l => exact ⟨l.length, rfl⟩
  rw [hL] at h1
  subst h1
  rw [List.getLast?_eq_getElem?, List.getElem?_eq_getElem (by omega)] at hz
  refine ⟨_, _, if_pos (Nat.lt_succ_self L), rfl, rfl, fun k hk x => ?_⟩
  obtain rfl : k = 0 := by simpa using hk
  have := h2 (l.length - 1) (by omega) x
  rw [Option.some.inj hz] at this
  simpa [hL] using this

theorem tensConvert_rep [Field K] (hn : 0 < n) (hN : 0 < N) {bs : List (TCBlock N n m K)} {us : List (Fin (N * m) → K)} {xs : List (Fin n → K)}
    {Lambda cbar Lbar ut xt : Tens K} (hLam : Lambda.IsMt finProdFinEquiv (Equiv.refl _) bs (·.Lambda))
    (hcb : cbar.IsVt finProdFinEquiv bs (·.cbar)) (hLb : Lbar.IsMt finProdFinEquiv (Equiv.refl _) bs (·.Lbar))
    (hu : ut.IsVt (Equiv.refl _) us fun u => u) (hx : xt.IsVt (Equiv.refl _) xs fun x => x)
    (hul : us.length = bs.length) (hxl : xs.length = bs.length + 1) (T : ℕ) :
    ∃ us' xs' u x, tfConvertUX T bs us xs = .ok (us', xs') ∧ tensConvertUX ut xt Lambda cbar Lbar T = .ok (u, x) ∧
      u.IsVt (Equiv.refl _) us' (fun u => u) ∧ x.IsVt (Equiv.refl _) xs' fun x => x := by
  obtain ⟨xi, exi, hxi⟩ := hx.init
  have hdl : xs.dropLast.length = bs.length := by simp [hxl]
  obtain ⟨xl, hlast⟩ : ∃ xl, xs.getLast? = some xl := by
    cases h : xs.getLast? with
    | none => rw [List.getLast?_eq_none_iff] at h; simp [h] at hxl
    | some xl => exact ⟨xl, rfl⟩
  have hZ : bs.length = (bs.zip (xs.dropLast.zip us)).length := by simp [hxl, hul]
  generalize hZe : bs.zip (xs.dropLast.zip us) = Z at hZ
  have hg : ∀ (k : ℕ) (h : k < Z.length), ∃ (h1 : k < bs.length) (h2 : k < xs.dropLast.length) (h3 : k < us.length),
      Z[k] = (bs[k], xs.dropLast[k], us[k]) := by
    intro k h
    subst hZe
    exact ⟨by omega, by omega, by omega, by simp⟩
  replace hLam : Lambda.IsMt finProdFinEquiv (Equiv.refl _) Z (·.1.Lambda) := hLam.congr hZ fun k h h' => by
    obtain ⟨_, _, _, e⟩ := hg k h'; rw [e]
  replace hcb : cbar.IsVt finProdFinEquiv Z (·.1.cbar) := hcb.congr hZ fun k h h' => by
    obtain ⟨_, _, _, e⟩ := hg k h'; rw [e]
  replace hLb : Lbar.IsMt finProdFinEquiv (Equiv.refl _) Z (·.1.Lbar) := hLb.congr hZ fun k h h' => by
    obtain ⟨_, _, _, e⟩ := hg k h'; rw [e]
  have hxi' : xi.IsVt (Equiv.refl _) Z (·.2.1) := hxi.congr (hdl.trans hZ) fun k h h' => by
    obtain ⟨_, _, _, e⟩ := hg k h'; rw [e]
  have hu' : ut.IsVt (Equiv.refl _) Z (·.2.2) := hu.congr (hul.trans hZ) fun k h h' => by
    obtain ⟨_, _, _, e⟩ := hg k h'; rw [e]
  obtain ⟨a1, ea1, ha1⟩ := hLam.matvec hxi'
  obtain ⟨a2, ea2, ha2⟩ := ha1.bin (· + ·) hcb
  obtain ⟨a3, ea3, ha3⟩ := hLb.matvec hu'
  obtain ⟨xb, exb, hxb⟩ := ha2.bin (· + ·) ha3
  obtain ⟨xr, exr, hxr⟩ := tensUnrows hxb rfl
  have hub : ut.IsVt (finProdFinEquiv (m := N) (n := m)) us fun u ia => u (finProdFinEquiv ia) := ⟨hu.1, fun k hk i => hu.2 k hk _⟩
  obtain ⟨ur, eur, hur⟩ := tensUnrows hub (hul.trans hZ)
  obtain ⟨x1, ex1, hx1⟩ := hxr.take T
  obtain ⟨q, xq, eq, exq, hxq⟩ := hx.lastRow hlast
  obtain ⟨x2, ex2, hx2⟩ := hx1.append hxq
  obtain ⟨u1, eu1, hu1⟩ := hur.take T
  refine ⟨_, _, u1, x2, ?_, ?_, hu1, hx2⟩
  · have hblocks : List.zipWith (fun (c : TCBlock N n m K) (xu : (Fin n → K) × (Fin (N * m) → K)) =>
        c.Lambda *ᵥ xu.1 + c.cbar + c.Lbar *ᵥ xu.2) bs (xs.dropLast.zip us) =
        Z.map fun z => z.1.Lambda *ᵥ z.2.1 + z.1.cbar + z.1.Lbar *ᵥ z.2.2 := by
      rw [← hZe, List.map_zip_eq_zipWith]
      rfl
    unfold tfConvertUX
    rw [if_neg (by simp [hxl, hul])]
    simp only [hblocks, hlast, List.flatMap_map]
    rfl
  · have hdn : N * n / n = N := Nat.mul_div_cancel _ hn
    have hdm : N * m / N = m := Nat.mul_div_cancel_left _ hN
    unfold tensConvertUX
    refine bstep exi (bstep ea1 (bstep ea2 (bstep ea3 (bstep exb (bstep hx.size1 (bstep hxb.size0 ?_))))))
    refine Eq.trans (if_neg (by omega)) ?_
    refine bstep hxb.size1 ?_
    simp only [hdn]
    refine Eq.trans (if_neg (by omega)) ?_
    refine bstep hu.size1 ?_
    simp only [hdm]
    refine bstep exr (bstep eur (bstep ex1 (bstep eq (bstep exq (bstep ex2 (bstep eu1 rfl))))))

end Verif
