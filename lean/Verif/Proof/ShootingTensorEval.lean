import Verif.Proof.ShootingTensor
import Verif.Props.SQPTensor
import Mathlib.Analysis.Calculus.ContDiff.Operations

/-! The conditional value function by direct shooting on tensors. -/

namespace Verif

open Matrix

/-! ### Smoothness -/

section Smooth
variable {E : Type} [NormedAddCommGroup E] [NormedSpace ℝ E] {g L : ℝ → ℝ → ℝ} (hg : ContDiff ℝ 2 fun p : ℝ × ℝ => g p.1 p.2)
  (hL : ContDiff ℝ 2 fun p : ℝ × ℝ => L p.1 p.2)
include hg hL

theorem shootStep_smooth (dt : ℝ) {a b x c : E → ℝ} (ha : ContDiff ℝ 2 a) (hb : ContDiff ℝ 2 b) (hx : ContDiff ℝ 2 x) (hc : ContDiff ℝ 2 c) :
    ContDiff ℝ 2 (fun e => (shootStep g L dt (a e) (b e) (x e, c e)).1) ∧ ContDiff ℝ 2 fun e => (shootStep g L dt (a e) (b e) (x e, c e)).2 := by
  have hG : ∀ {u v : E → ℝ}, ContDiff ℝ 2 u → ContDiff ℝ 2 v → ContDiff ℝ 2 fun e => g (u e) (v e) := fun hu hv => hg.comp (hu.prodMk hv)
  have hl : ∀ {u v : E → ℝ}, ContDiff ℝ 2 u → ContDiff ℝ 2 v → ContDiff ℝ 2 fun e => L (u e) (v e) := fun hu hv => hL.comp (hu.prodMk hv)
  have m : ∀ (r : ℝ) {u : E → ℝ}, ContDiff ℝ 2 u → ContDiff ℝ 2 fun e => r * u e := fun r u hu => contDiff_const.mul hu
  have u2 : ContDiff ℝ 2 fun e => a e + b e * (dt / 2) := ha.add (hb.mul contDiff_const)
  have u4 : ContDiff ℝ 2 fun e => a e + b e * dt := ha.add (hb.mul contDiff_const)
  have k1 := hG hx ha
  have x2 := hx.add (m (1 / 2) (m dt k1))
  have k2 := hG x2 u2
  have x3 := hx.add (m (1 / 2) (m dt k2))
  have k3 := hG x3 u2
  have x4 := hx.add (m dt k3)
  have k4 := hG x4 u4
  exact ⟨hx.add (m (1 / 6) ((((m dt k1).add (m 2 (m dt k2))).add (m 2 (m dt k3))).add (m dt k4))),
    hc.add (m (1 / 6) ((((m dt (hl hx ha)).add (m 2 (m dt (hl x2 u2)))).add (m 2 (m dt (hl x3 u2)))).add (m dt (hl x4 u4))))⟩

theorem shoot1_smooth (dt : ℝ) : ∀ (l : List ((E → ℝ) × (E → ℝ))), (∀ p ∈ l, ContDiff ℝ 2 p.1 ∧ ContDiff ℝ 2 p.2) → ∀ {s : E → ℝ × ℝ},
    ContDiff ℝ 2 (fun e => (s e).1) → ContDiff ℝ 2 (fun e => (s e).2) →
    ContDiff ℝ 2 (fun e => (shoot1 g L dt (l.map fun p => (p.1 e, p.2 e)) (s e)).1) ∧
    ContDiff ℝ 2 fun e => (shoot1 g L dt (l.map fun p => (p.1 e, p.2 e)) (s e)).2
  | [], _, _, h1, h2 => ⟨h1, h2⟩
  | p :: l, h, s, h1, h2 => by
    obtain ⟨h3, h4⟩ := shootStep_smooth hg hL dt (h p (by simp)).1 (h p (by simp)).2 h1 h2
    exact shoot1_smooth dt l (fun q hq => h q (by simp [hq])) (s := fun e => shootStep g L dt (p.1 e) (p.2 e) (s e)) h3 h4

theorem shoot2_smooth (dt : ℝ) : ∀ (l : List (E → ℝ)), (∀ p ∈ l, ContDiff ℝ 2 p) → ∀ {s : E → (ℝ × ℝ) × ℝ},
    ContDiff ℝ 2 (fun e => (s e).1.1) → ContDiff ℝ 2 (fun e => (s e).1.2) → ContDiff ℝ 2 (fun e => (s e).2) →
    ContDiff ℝ 2 (fun e => (shoot2 g L dt (l.map fun p => p e) (s e)).1.1) ∧
    ContDiff ℝ 2 fun e => (shoot2 g L dt (l.map fun p => p e) (s e)).1.2
  | [], _, _, h1, h2, _ => ⟨h1, h2⟩
  | p :: l, h, s, h1, h2, h3 => by
    have hp := h p (by simp)
    obtain ⟨h4, h5⟩ := shootStep_smooth hg hL dt h3 hp h1 h2
    exact shoot2_smooth dt l (fun q hq => h q (by simp [hq]))
      (s := fun e => (shootStep g L dt (s e).2 (p e) (s e).1, (s e).2 + p e * dt)) h4 h5 (h3.add (hp.mul contDiff_const))

end Smooth

/-! ### The programs -/

section Prog
variable {g L : TensFun ℝ} {gf Lf : ℝ → ℝ → ℝ}

/-- Cost and constraint violation of the first parametrisation. -/
noncomputable def shootF1 (gf Lf : ℝ → ℝ → ℝ) (T : ℝ) (steps : ℕ) (th : Fin (2 * steps) → ℝ) (p : Fin 2 → ℝ) : ℝ × ℝ :=
  let r := shoot1 gf Lf (T / steps) (List.ofFn fun i : Fin steps => (th ⟨0 + 2 * i.val, by omega⟩, th ⟨1 + 2 * i.val, by omega⟩)) (p 0, 0)
  (r.2, r.1 - p 1)

/-- Cost and constraint violation of the second parametrisation. -/
noncomputable def shootF2 (gf Lf : ℝ → ℝ → ℝ) (T : ℝ) (steps : ℕ) (th : Fin (steps + 1) → ℝ) (p : Fin 2 → ℝ) : ℝ × ℝ :=
  let r := shoot2 gf Lf (T / steps) (List.ofFn fun i : Fin steps => th i.succ) ((p 0, 0), th 0)
  (r.1.2, r.1.1 - p 1)

theorem shootF1_eq (T : ℝ) {steps : ℕ} (hs : steps ≠ 0) (th : Fin (2 * steps) → ℝ) (p : Fin 2 → ℝ) :
    funAndCon1 gf Lf T (p 0) (p 1) (thetaEven th) (thetaOdd th) = .ok (shootF1 gf Lf T steps th p) := by
  rw [← funAndCon1TF_eq]
  have e : (fun i : Fin steps => th ⟨2 * i.val + 1, by omega⟩) = fun i : Fin steps => th ⟨1 + 2 * i.val, by omega⟩ :=
    funext fun i => congrArg th (Fin.ext (add_comm _ _))
  have e' : (fun i : Fin steps => th ⟨2 * i.val, by omega⟩) = fun i : Fin steps => th ⟨0 + 2 * i.val, by omega⟩ :=
    funext fun i => congrArg th (Fin.ext (zero_add _).symm)
  unfold thetaEven thetaOdd
  rw [e, e', funAndCon1TF_shoot _ _ _ hs]
  rfl

theorem shootF2_eq (T : ℝ) {steps : ℕ} (hs : steps ≠ 0) (th : Fin (steps + 1) → ℝ) (p : Fin 2 → ℝ) :
    funAndCon2 gf Lf T (p 0) (p 1) (List.ofFn th) = .ok (shootF2 gf Lf T steps th p) := by
  rw [← funAndCon2TF_eq, funAndCon2TF_shoot _ _ _ hs]
  rfl

theorem shootF1_smooth (hg : ContDiff ℝ 2 fun p : ℝ × ℝ => gf p.1 p.2) (hL : ContDiff ℝ 2 fun p : ℝ × ℝ => Lf p.1 p.2) (T : ℝ) (steps : ℕ)
    (p : Fin 2 → ℝ) :
    (ContDiff ℝ 2 fun th => (shootF1 gf Lf T steps th p).1) ∧ ContDiff ℝ 2 fun th => fun _ : Fin 1 => (shootF1 gf Lf T steps th p).2 := by
  obtain ⟨h1, h2⟩ := shoot1_smooth hg hL (T / steps) (List.ofFn fun i : Fin steps =>
    ((fun th : Fin (2 * steps) → ℝ => th ⟨0 + 2 * i.val, by omega⟩), fun th : Fin (2 * steps) → ℝ => th ⟨1 + 2 * i.val, by omega⟩)) (by
      intro q hq
      obtain ⟨i, rfl⟩ := List.mem_ofFn.1 hq
      exact ⟨contDiff_apply _ _ _, contDiff_apply _ _ _⟩) (s := fun _ => (p 0, 0)) contDiff_const contDiff_const
  simp only [List.map_ofFn] at h1 h2
  exact ⟨h2, contDiff_pi.2 fun _ => h1.sub contDiff_const⟩

theorem shootF2_smooth (hg : ContDiff ℝ 2 fun p : ℝ × ℝ => gf p.1 p.2) (hL : ContDiff ℝ 2 fun p : ℝ × ℝ => Lf p.1 p.2) (T : ℝ) (steps : ℕ)
    (p : Fin 2 → ℝ) :
    (ContDiff ℝ 2 fun th => (shootF2 gf Lf T steps th p).1) ∧ ContDiff ℝ 2 fun th => fun _ : Fin 1 => (shootF2 gf Lf T steps th p).2 := by
  obtain ⟨h1, h2⟩ := shoot2_smooth hg hL (T / steps) (List.ofFn fun i : Fin steps => (fun th : Fin (steps + 1) → ℝ => th i.succ)) (by
      intro q hq
      obtain ⟨i, rfl⟩ := List.mem_ofFn.1 hq
      exact contDiff_apply _ _ _) (s := fun th => ((p 0, 0), th 0)) contDiff_const contDiff_const (contDiff_apply _ _ _)
  simp only [List.map_ofFn] at h1 h2
  exact ⟨h2, contDiff_pi.2 fun _ => h1.sub contDiff_const⟩

theorem fc1_prog (hg : Pointwise2 g gf) (hL : Pointwise2 L Lf) (T : ℝ) {steps : ℕ} (hs : steps ≠ 0) :
    ProgTens (fun th p => (shootF1 gf Lf T steps th p).1) (fun th p (_ : Fin 1) => (shootF1 gf Lf T steps th p).2)
      (tensFcFun (tensFc1 g L T)) (tensFcCon (tensFc1 g L T)) := by
  have key : ∀ (l : List ((Fin (2 * steps) → ℝ) × (Fin 2 → ℝ))) (tx tp : Tens ℝ), tx.HV l (·.1) → tp.HV l (·.2) →
      ∃ cT cv, tensFc1 g L T tx tp = .ok (cT, cv) ∧ (cT.HS l fun a => (shootF1 gf Lf T steps a.1 a.2).1) ∧
        cv.HV l fun a (_ : Fin 1) => (shootF1 gf Lf T steps a.1 a.2).2 := by
    intro l tx tp hx hp
    obtain ⟨x0, e1, h1⟩ := hp.entryLast 0
    obtain ⟨xf, e2, h2⟩ := hp.entryLast 1
    obtain ⟨a, e3, h3⟩ := hx.strideL 0 2 steps (by omega) (fun j => by omega)
    obtain ⟨b, e4, h4⟩ := hx.strideL 1 2 steps (by omega) (fun j => by omega)
    obtain ⟨cT, cv, e5, h5, h6⟩ := tensFunAndCon1_rep hg hL T hs h1 h2 h3 h4
    exact ⟨cT, cv, bstep e1 (bstep e2 (bstep e3 (bstep e4 e5))), h5, h6⟩
  constructor
  · intro l tx tp hx hp
    obtain ⟨cT, cv, e, h1, h2⟩ := key l tx tp hx hp
    exact ⟨cT, bstep e rfl, h1⟩
  · intro l tx tp hx hp
    obtain ⟨cT, cv, e, h1, h2⟩ := key l tx tp hx hp
    exact ⟨cv, bstep e rfl, h2⟩

theorem fc2_prog (hg : Pointwise2 g gf) (hL : Pointwise2 L Lf) (T : ℝ) {steps : ℕ} (hs : steps ≠ 0) :
    ProgTens (fun th p => (shootF2 gf Lf T steps th p).1) (fun th p (_ : Fin 1) => (shootF2 gf Lf T steps th p).2)
      (tensFcFun (tensFc2 g L T)) (tensFcCon (tensFc2 g L T)) := by
  have key : ∀ (l : List ((Fin (steps + 1) → ℝ) × (Fin 2 → ℝ))) (tx tp : Tens ℝ), tx.HV l (·.1) → tp.HV l (·.2) →
      ∃ cT cv, tensFc2 g L T tx tp = .ok (cT, cv) ∧ (cT.HS l fun a => (shootF2 gf Lf T steps a.1 a.2).1) ∧
        cv.HV l fun a (_ : Fin 1) => (shootF2 gf Lf T steps a.1 a.2).2 := by
    intro l tx tp hx hp
    obtain ⟨x0, e1, h1⟩ := hp.entryLast 0
    obtain ⟨xf, e2, h2⟩ := hp.entryLast 1
    obtain ⟨cT, cv, e5, h5, h6⟩ := tensFunAndCon2_rep hg hL T hs h1 h2 hx
    exact ⟨cT, cv, bstep e1 (bstep e2 e5), h5, h6⟩
  constructor
  · intro l tx tp hx hp
    obtain ⟨cT, cv, e, h1, h2⟩ := key l tx tp hx hp
    exact ⟨cT, bstep e rfl, h1⟩
  · intro l tx tp hx hp
    obtain ⟨cT, cv, e, h1, h2⟩ := key l tx tp hx hp
    exact ⟨cv, bstep e rfl, h2⟩

end Prog

/-! ### The grid -/

section Eval
variable {N p q : ℕ} {F : (Fin N → ℝ) → (Fin 2 → ℝ) → ℝ × ℝ} {fc : Tens ℝ → Tens ℝ → Py (Tens ℝ × Tens ℝ)}

/-- The start and end points of all items in the order of the batch. -/
def meshItems (x0 : Fin p → ℝ) (xf : Fin q → ℝ) : List (Fin 2 → ℝ) :=
  List.ofFn fun b : Fin (p * q) => ![x0 b.divNat, xf b.modNat]

theorem reshape_vec {t : Tens ℝ} {w : ℕ → ℕ → ℝ} (hs : t.shape = [p, q]) (hv : ∀ i < p, ∀ j < q, t.val [i, j] = w i j) :
    ∃ r, t.reshape [t.shape.getD 0 0 * t.shape.getD 1 0] = .ok r ∧ r.shape = [p * q] ∧ ∀ k < p * q, r.val [k] = w (k / q) (k % q) := by
  obtain ⟨s, v⟩ := t
  dsimp only at hs hv
  subst hs
  refine ⟨_, if_pos (by simp), rfl, fun k hk => ?_⟩
  have hq : 0 < q := Nat.pos_of_ne_zero (by rintro rfl; simp at hk)
  have e : unravel [p, q] (ravel [p * q] [k]) = [k / q, k % q] := by simp [unravel, ravel]
  dsimp only
  refine Eq.trans (congrArg v ?_) (hv _ (Nat.div_lt_of_lt_mul (by rwa [mul_comm] at hk)) _ (Nat.mod_lt _ hq))
  exact e

theorem reshape_mat {t : Tens ℝ} (hs : t.shape = [p * q]) :
    ∃ r, t.reshape [p, q] = .ok r ∧ r.shape = [p, q] ∧ ∀ i < p, ∀ j < q, r.val [i, j] = t.val [i * q + j] := by
  obtain ⟨s, v⟩ := t
  dsimp only at hs
  subst hs
  refine ⟨_, if_pos (by simp), rfl, fun i _ j _ => congrArg v ?_⟩
  simp [unravel, ravel]

theorem tensVEval_rep (hP : ProgTens (fun th p => (F th p).1) (fun th p (_ : Fin 1) => (F th p).2) (tensFcFun fc) (tensFcCon fc))
    (hf : ∀ p, ContDiff ℝ 2 fun th => (F th p).1) (hc : ∀ p, ContDiff ℝ 2 fun th => fun _ : Fin 1 => (F th p).2)
    {x0 : Fin p → ℝ} {xf : Fin q → ℝ} {t0 tf : Tens ℝ} (h0 : t0.IsV x0) (h1 : tf.IsV xf) (k : ℕ) :
    ((∃ V, tensVEval fc N t0 tf (k + 1) = .ok V) ↔
      ∀ i j, ∃ r, adLocalEqFast (fun th => (F th ![x0 i, xf j]).1) (fun th (_ : Fin 1) => (F th ![x0 i, xf j]).2) 0 (k + 1) = .ok r) ∧
    (∀ V, tensVEval fc N t0 tf (k + 1) = .ok V → V.shape = [p, q] ∧ ∀ (i : Fin p) (j : Fin q),
      ∃ r, adLocalEqFast (fun th => (F th ![x0 i, xf j]).1) (fun th (_ : Fin 1) => (F th ![x0 i, xf j]).2) 0 (k + 1) = .ok r ∧
        V.val [i.val, j.val] = (F r.1 ![x0 i, xf j]).1) ∧
    tensVEval fc N t0 tf 0 = .error .indexError := by
  obtain ⟨s0, v0⟩ := t0
  obtain ⟨sf, vf⟩ := tf
  obtain ⟨a0, b0⟩ := h0
  obtain ⟨a1, b1⟩ := h1
  dsimp only at a0 a1 b0 b1
  subst a0 a1
  set X0 : Tens ℝ := ⟨[p, q], fun i => v0 [i.getD 0 0]⟩ with hX0
  set Xf : Tens ℝ := ⟨[p, q], fun i => vf [i.getD 1 0]⟩ with hXf
  obtain ⟨x0v, e1, c1, d1⟩ := reshape_vec (t := X0) (w := fun i j => v0 [i]) rfl (fun i _ j _ => rfl)
  obtain ⟨xfv, e2, c2, d2⟩ := reshape_vec (t := Xf) (w := fun i j => vf [j]) rfl (fun i _ j _ => rfl)
  have hlen : (meshItems x0 xf).length = p * q := by simp [meshItems]
  have hitem : ∀ (b : ℕ) (hb : b < (meshItems x0 xf).length), (meshItems x0 xf)[b] =
      ![x0 (Fin.divNat (m := p) (n := q) ⟨b, by rwa [← hlen]⟩), xf (Fin.modNat (m := p) (n := q) ⟨b, by rwa [← hlen]⟩)] := by
    intro b hb
    simp only [meshItems, List.getElem_ofFn]
  have g1 : x0v.HS (meshItems x0 xf) fun v => v 0 := by
    refine ⟨by rw [c1, hlen], fun b hb => ?_⟩
    rw [d1 b (by rwa [← hlen]), hitem b hb]
    exact b0 (Fin.divNat (m := p) (n := q) ⟨b, _⟩)
  have g2 : xfv.HS (meshItems x0 xf) fun v => v 1 := by
    refine ⟨by rw [c2, hlen], fun b hb => ?_⟩
    rw [d2 b (by rwa [← hlen]), hitem b hb]
    exact b1 (Fin.modNat (m := p) (n := q) ⟨b, _⟩)
  obtain ⟨par, e3, g3⟩ := pack2Last g1 g2
  have g4 : par.HoldsV (meshItems x0 xf) := g3.fcongr fun v _ => by
    funext i; fin_cases i <;> rfl
  have g5 : (Tens.const [x0v.shape.getD 0 0, N] (0 : ℝ)).HoldsV (List.replicate (p * q) (0 : Fin N → ℝ)) := by
    refine ⟨by rw [c1, List.length_replicate]; rfl, fun b hb i => ?_⟩
    rw [List.getElem_replicate]
    rfl
  have hl : (List.replicate (p * q) (0 : Fin N → ℝ)).length = (meshItems x0 xf).length := by rw [hlen, List.length_replicate]
  have hshape : ∀ n xs lams crits, tensLocalEqFast (tensFcFun fc) (tensFcCon fc) (Tens.const [x0v.shape.getD 0 0, N] (0 : ℝ)) par n = .ok (xs, lams, crits) →
      xs.shape = [n, p * q, N] := by
    intro n xs lams crits hr
    obtain ⟨q1, q2⟩ := C103_sqp hP hf hc (by norm_num) _ _ hl g5 g4 n
    obtain ⟨l, hl⟩ := q1.1 ⟨_, hr⟩
    have := (q2 _ _ _ l hr hl).1.1
    rw [this, List.length_map, scanFwd_length _ _ _ _ hl, List.length_range, List.length_replicate]
  have hsplit : ∀ n, tensVEval fc N ⟨[p], v0⟩ ⟨[q], vf⟩ n =
      (tensLocalEqFast (tensFcFun fc) (tensFcCon fc) (Tens.const [x0v.shape.getD 0 0, N] (0 : ℝ)) par n >>= fun r =>
        r.1.last >>= fun th => tensFcFun fc th par >>= fun V => V.reshape [p, q]) := by
    intro n
    exact bstep (a := (Xf, X0)) rfl (bstep e1 (bstep e2 (bstep e3 rfl)))
  have hrep : ∀ b, b < p * q → (List.replicate (p * q) (0 : Fin N → ℝ)).length = p * q := fun _ _ => List.length_replicate
  have hfin : ∀ n xs lams crits, tensLocalEqFast (tensFcFun fc) (tensFcCon fc) (Tens.const [x0v.shape.getD 0 0, N] (0 : ℝ)) par (n + 1) =
      .ok (xs, lams, crits) → ∃ V, tensVEval fc N ⟨[p], v0⟩ ⟨[q], vf⟩ (n + 1) = .ok V ∧ V.shape = [p, q] ∧ ∀ (i : Fin p) (j : Fin q),
        V.val [i.val, j.val] = (F (fun a : Fin N => xs.val [n, i.val * q + j.val, a.val]) ![x0 i, xf j]).1 := by
    intro n xs lams crits hr
    have hsh := hshape _ _ _ _ hr
    obtain ⟨sx, vx⟩ := xs
    dsimp only at hsh
    subst hsh
    set l : List ((Fin N → ℝ) × (Fin 2 → ℝ)) := List.ofFn fun b : Fin (p * q) =>
      ((fun a : Fin N => vx [n, b.val, a.val]), ![x0 b.divNat, xf b.modNat]) with hldef
    have hll : l.length = p * q := by simp [hldef]
    set th : Tens ℝ := ⟨[p * q, N], fun i => vx (i.insertIdx 0 n)⟩ with hth
    have e4 : (⟨[n + 1, p * q, N], vx⟩ : Tens ℝ).last = .ok th := if_pos (Nat.lt_succ_self n)
    have g6 : th.HV l (·.1) := by
      refine ⟨by rw [hll], fun b hb i => ?_⟩
      simp only [hldef, List.getElem_ofFn]
      rfl
    have g7 : par.HV l (·.2) := by
      refine ⟨by rw [hll, ← hlen]; exact g4.1, fun b hb i => ?_⟩
      rw [g4.2 b (by rw [hlen, ← hll]; exact hb) i, hitem]
      simp only [hldef, List.getElem_ofFn]
    obtain ⟨V, e5, c5, d5⟩ := hP.f l th par g6 g7
    obtain ⟨r, e6, c6, d6⟩ := reshape_mat (p := p) (q := q) (t := V) (by rw [c5, hll])
    refine ⟨r, ?_, c6, fun i j => ?_⟩
    · rw [hsplit]
      exact bstep hr (bstep e4 (bstep e5 e6))
    · have hb : i.val * q + j.val < p * q := by
        have := i.isLt; have := j.isLt
        calc i.val * q + j.val < i.val * q + q := by omega
          _ = (i.val + 1) * q := by ring
          _ ≤ p * q := Nat.mul_le_mul_right _ (by omega)
      have hd : Fin.divNat (m := p) (n := q) ⟨i.val * q + j.val, hb⟩ = i := by
        apply Fin.ext
        simp only [Fin.coe_divNat]
        rw [mul_comm, Nat.mul_add_div (by have := j.isLt; omega), Nat.div_eq_of_lt j.isLt, add_zero]
      have hm : Fin.modNat (m := p) (n := q) ⟨i.val * q + j.val, hb⟩ = j := by
        apply Fin.ext
        simp only [Fin.coe_modNat]
        rw [mul_comm, Nat.mul_add_mod, Nat.mod_eq_of_lt j.isLt]
      rw [d6 i i.isLt j j.isLt, d5 _ (by rw [hll]; exact hb)]
      simp only [hldef, List.getElem_ofFn, hd, hm]
  obtain ⟨q1, q2⟩ := C103_items hP hf hc (by norm_num) _ _ hl g5 g4 (k + 1)
  have hdm : ∀ (i : Fin p) (j : Fin q), ∃ hb : i.val * q + j.val < p * q,
      Fin.divNat (m := p) (n := q) ⟨i.val * q + j.val, hb⟩ = i ∧ Fin.modNat (m := p) (n := q) ⟨i.val * q + j.val, hb⟩ = j := by
    intro i j
    have hb : i.val * q + j.val < p * q := by
      have := i.isLt; have := j.isLt
      calc i.val * q + j.val < i.val * q + q := by omega
        _ = (i.val + 1) * q := by ring
        _ ≤ p * q := Nat.mul_le_mul_right _ (by omega)
    refine ⟨hb, Fin.ext ?_, Fin.ext ?_⟩
    · simp only [Fin.coe_divNat]
      rw [mul_comm, Nat.mul_add_div (by have := j.isLt; omega), Nat.div_eq_of_lt j.isLt, add_zero]
    · simp only [Fin.coe_modNat]
      rw [mul_comm, Nat.mul_add_mod, Nat.mod_eq_of_lt j.isLt]
  refine ⟨⟨?_, ?_⟩, ?_, ?_⟩
  · rintro ⟨V, hV⟩ i j
    rw [hsplit] at hV
    obtain ⟨r, hr, -⟩ := bind_ok.1 hV
    obtain ⟨hb, hd, hm⟩ := hdm i j
    have := q1.1 ⟨r, hr⟩ (i.val * q + j.val) (by rw [List.length_replicate]; exact hb)
    simpa only [List.getElem_replicate, hitem, hd, hm] using this
  · intro hall
    obtain ⟨⟨xs, lams, crits⟩, hr⟩ := q1.2 (fun b hb => by
      simp only [List.getElem_replicate, hitem]
      exact hall _ _)
    obtain ⟨V, hV, -⟩ := hfin k xs lams crits hr
    exact ⟨V, hV⟩
  · intro V hV
    have hV' := hV
    rw [hsplit] at hV'
    obtain ⟨⟨xs, lams, crits⟩, hr, -⟩ := bind_ok.1 hV'
    obtain ⟨V', h3, h4, h5⟩ := hfin k xs lams crits hr
    rw [hV] at h3
    cases h3
    refine ⟨h4, fun i j => ?_⟩
    obtain ⟨hb, hd, hm⟩ := hdm i j
    obtain ⟨x, crit, h6, h7⟩ := q2 xs lams crits hr k (Nat.lt_succ_self k) (i.val * q + j.val) (by rw [List.length_replicate]; exact hb)
    simp only [List.getElem_replicate, hitem, hd, hm] at h6
    refine ⟨_, h6, ?_⟩
    rw [h5 i j, funext h7]
  · obtain ⟨⟨xs, lams, crits⟩, hr⟩ := (C103_items hP hf hc (by norm_num) _ _ hl g5 g4 0).1.2 (fun b hb => ⟨_, rfl⟩)
    have hsh := hshape _ _ _ _ hr
    rw [hsplit, hr]
    obtain ⟨sx, vx⟩ := xs
    dsimp only at hsh
    subst hsh
    rfl

end Eval

end Verif
