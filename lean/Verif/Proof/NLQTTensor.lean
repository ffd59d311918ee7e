import Verif.Props.TensorNLQT
import Verif.Proof.LQTTensorFwd
import Verif.Props.NLQTTF

/-! Proofs about `nlqt_tf.py` and `nonlinear_model_tf.py` on tensors. -/

namespace Verif

open Matrix

variable {n m p q : ℕ} {K β : Type}

section Field
variable [Field K]

theorem linearize_rep {M : NModel n m K} {f Fx Fu : TensFun K} (hM : ModelTens M f Fx Fu) {l : List ((Fin n → K) × (Fin m → K))} {tx tu : Tens K}
    (hx : tx.HV l (·.1)) (hu : tu.HV l (·.2)) :
    ∃ Fs cs Ls, tensNlqtLinearize tu tx f Fx Fu = .ok (Fs, cs, Ls) ∧ Fs.HM l (fun a => (M.linTF a.2 a.1).1) ∧
      cs.HV l (fun a => (M.linTF a.2 a.1).2.1) ∧ Ls.HM l (fun a => (M.linTF a.2 a.1).2.2) := by
  obtain ⟨fs, e1, h1⟩ := hM.f l tx tu hx hu
  obtain ⟨Fs, e2, h2⟩ := hM.Fx l tx tu hx hu
  obtain ⟨Ls, e3, h3⟩ := hM.Fu l tx tu hx hu
  obtain ⟨w1, e4, h4⟩ := Tens.IsMt.mv h2 hx
  obtain ⟨w2, e5, h5⟩ := Tens.IsVt.sub h1 h4
  obtain ⟨w3, e6, h6⟩ := Tens.IsMt.mv h3 hu
  obtain ⟨cs, e7, h7⟩ := Tens.IsVt.sub h5 h6
  refine ⟨Fs, cs, Ls, ?_, h2, h7, h3⟩
  unfold tensNlqtLinearize
  exact bstep e1 (bstep e2 (bstep e3 (bstep e4 (bstep e5 (bstep e6 (bstep e7 rfl))))))

theorem linearize_stages {M : NModel n m K} {f Fx Fu : TensFun K} (hM : ModelTens M f Fx Fu) {C : NQCost n m p q K}
    {Hs HT rs rT Xs XT Us : Tens K} (hC : CostTens C Hs HT rs rT Xs XT Us) {us : List (Fin m → K)} {xs : List (Fin n → K)}
    (lu : us.length = C.stages.length) (lx : xs.length = C.stages.length) {tx tu : Tens K} (hx : tx.HoldsV xs) (hu : tu.HoldsV us) :
    ∃ Fs cs Ls, tensNlqtLinearize tu tx f Fx Fu = .ok (Fs, cs, Ls) ∧ StageTens (M.linearizeTF C us xs).stages Fs cs Ls Hs rs Xs Us ∧
      TermTens (M.linearizeTF C us xs) HT rT XT := by
  have hx' : tx.HV (xs.zip us) (·.1) := Tens.IsVt.zipL (cs := us) hx (by omega)
  have hu' : tu.HV (xs.zip us) (·.2) := Tens.IsVt.zipR (bs := xs) hu (by omega)
  obtain ⟨Fs, cs, Ls, e, hF, hc, hL⟩ := linearize_rep hM hx' hu'
  have key : ∀ {γ : Type} (g : (Fin n → K) × (Fin m → K) → γ) (h : TStage n m p K → γ),
      (∀ (c : NQStage n m p K) u x, h ⟨(M.linTF u x).1, (M.linTF u x).2.1, (M.linTF u x).2.2, c.H, c.r, c.X, c.U⟩ = g (x, u)) →
      (xs.zip us).map g = (M.linearizeTF C us xs).stages.map h := by
    intro γ g h hh
    refine List.ext_getElem (by simp [NModel.linearizeTF, lu, lx]) fun k h1 h2 => ?_
    simp [NModel.linearizeTF, hh]
  have key' : ∀ {γ : Type} (g : NQStage n m p K → γ) (h : TStage n m p K → γ),
      (∀ (c : NQStage n m p K) u x, h ⟨(M.linTF u x).1, (M.linTF u x).2.1, (M.linTF u x).2.2, c.H, c.r, c.X, c.U⟩ = g c) →
      C.stages.map g = (M.linearizeTF C us xs).stages.map h := by
    intro γ g h hh
    refine List.ext_getElem (by simp [NModel.linearizeTF, lu, lx]) fun k h1 h2 => ?_
    simp [NModel.linearizeTF, hh]
  refine ⟨Fs, cs, Ls, e, ⟨hF.remap (key _ _ fun _ _ _ => rfl), hc.remap (key _ _ fun _ _ _ => rfl), hL.remap (key _ _ fun _ _ _ => rfl),
    hC.H.remap (key' _ _ fun _ _ _ => rfl), hC.r.remap (key' _ _ fun _ _ _ => rfl), hC.X.remap (key' _ _ fun _ _ _ => rfl),
    hC.U.remap (key' _ _ fun _ _ _ => rfl)⟩, ⟨hC.HT, hC.rT, hC.XT⟩⟩

omit [Field K] in
theorem nlqtBody_rep {M : NModel n m K} {f Fx Fu : TensFun K} (hM : ModelTens M f Fx Fu) {tx tu : Tens K} {x : Fin n → K} {u : Fin m → K}
    (hx : tx.IsV x) (hu : tu.IsV u) : ∃ r, tensNlqtBody f tx tu = .ok r ∧ r.IsV (M.f x u) := by
  obtain ⟨x1, e1, h1⟩ := hx.expand (x, u) (fun a => a.1) rfl
  obtain ⟨u1, e2, h2⟩ := hu.expand (x, u) (fun a => a.2) rfl
  obtain ⟨w, e3, h3⟩ := hM.f _ _ _ h1 h2
  obtain ⟨r, e4, h4⟩ := Tens.IsVt.first h3
  exact ⟨r, bstep e1 (bstep e2 (bstep e3 e4)), h4⟩

theorem nlqtScan_rep {M : NModel n m K} {f Fx Fu : TensFun K} (hM : ModelTens M f Fx Fu) {l : List (Tens K)} {us : List (Fin m → K)}
    (hl : List.Forall₂ (fun (t : Tens K) (u : Fin m → K) => t.IsV u) l us) : ∀ {tx : Tens K} {x : Fin n → K}, tx.IsV x →
      ∃ r, tfScanFwdM (tensNlqtBody f) tx l = .ok r ∧
        List.Forall₂ (fun (t : Tens K) (x : Fin n → K) => t.IsV x) r (tfScanFwd (fun x u => M.f x u) x us) := by
  induction hl with
  | nil => intro tx x _; exact ⟨[], rfl, .nil⟩
  | @cons t u l us ht hl ih =>
    intro tx x hx
    obtain ⟨x', e1, h1⟩ := nlqtBody_rep hM hx ht
    obtain ⟨r, e2, h2⟩ := ih h1
    refine ⟨x' :: r, ?_, .cons h1 h2⟩
    rw [tfScanFwdM]
    exact bstep e1 (bstep e2 rfl)

theorem simulate_rep {M : NModel n m K} {f Fx Fu : TensFun K} (hM : ModelTens M f Fx Fu) {us : List (Fin m → K)} {x0 : Fin n → K} {tx tu : Tens K}
    (hx : tx.IsV x0) (hu : tu.HoldsV us) : ∃ txs, tensNlqtSimulate tx tu f = .ok txs ∧ txs.HoldsV (M.simulateTF x0 us) := by
  obtain ⟨l, e1, hl⟩ := Tens.IsVt.items hu
  obtain ⟨r, e2, hr⟩ := nlqtScan_rep hM hl hx
  obtain ⟨xs, e3, hxs⟩ := stack_hV (f := fun A => A) tx.val hr
  obtain ⟨x1, e4, hx1⟩ := hx.expand x0 (fun v => v) rfl
  obtain ⟨xs', e5, hxs'⟩ := hx1.append hxs
  rw [← hx.1] at e3
  exact ⟨xs', bstep e1 (bstep e2 (bstep e3 (bstep e4 e5))), hxs'⟩

end Field

/-! ### The model functions -/

/-- One number for each item. -/
def Tens.HS (t : Tens K) (bs : List β) (f : β → K) : Prop := t.shape = [bs.length] ∧ ∀ (k : ℕ) (h : k < bs.length), t.val [k] = f bs[k]

theorem Tens.IsVt.entry {t : Tens K} {bs : List β} {f : β → Fin n → K} (h : t.HV bs f) (i : Fin n) :
    ∃ r, t.select 1 i.val = .ok r ∧ r.HS bs fun x => f x i := by
  obtain ⟨s, v⟩ := t
  obtain ⟨h1, h2⟩ := h
  dsimp only at h1 h2
  subst h1
  exact ⟨⟨[bs.length], fun j => v (j.insertIdx 1 i.val)⟩, if_pos i.2, rfl, fun k hk => h2 k hk i⟩

theorem Tens.HS.map {t : Tens K} {bs : List β} {f : β → K} (h : t.HS bs f) (g : K → K) : (t.map g).HS bs fun x => g (f x) :=
  ⟨h.1, fun k hk => congrArg g (h.2 k hk)⟩

theorem Tens.HS.bin {t t' : Tens K} {bs : List β} {f g : β → K} (op : K → K → K) (h : t.HS bs f) (h' : t'.HS bs g) :
    ∃ r, t.bin op t' = .ok r ∧ r.HS bs fun x => op (f x) (g x) := by
  obtain ⟨s, v⟩ := t
  obtain ⟨s', v'⟩ := t'
  obtain ⟨h1, h2⟩ := h
  obtain ⟨h3, h4⟩ := h'
  dsimp only at h1 h2 h3 h4
  subst h1 h3
  refine ⟨_, Tens.bin_eq (s := [bs.length]) (by simp [padShape]) (by simp [padShape]), by simp, fun k hk => ?_⟩
  dsimp only
  rw [← h2 k hk, ← h4 k hk]
  simp [bcastIdx, padShape, bc_lt, hk]

theorem pack4 {t0 t1 t2 t3 : Tens K} {bs : List β} {f0 f1 f2 f3 : β → K} (h0 : t0.HS bs f0) (h1 : t1.HS bs f1) (h2 : t2.HS bs f2) (h3 : t3.HS bs f3) :
    ∃ r, Tens.pack [t0, t1, t2, t3] 1 = .ok r ∧ r.HV bs fun x => ![f0 x, f1 x, f2 x, f3 x] := by
  obtain ⟨s0, v0⟩ := t0
  obtain ⟨s1, v1⟩ := t1
  obtain ⟨s2, v2⟩ := t2
  obtain ⟨s3, v3⟩ := t3
  obtain ⟨a0, b0⟩ := h0
  obtain ⟨a1, b1⟩ := h1
  obtain ⟨a2, b2⟩ := h2
  obtain ⟨a3, b3⟩ := h3
  dsimp only at *
  subst a0 a1 a2 a3
  refine ⟨⟨[bs.length, 4], fun i => if i.getD 1 0 < 3 then (if i.getD 1 0 < 2 then (if i.getD 1 0 < 1 then v0 (i.eraseIdx 1) else
    v1 ((i.set 1 (i.getD 1 0 - 1)).eraseIdx 1)) else v2 ((i.set 1 (i.getD 1 0 - 2)).eraseIdx 1)) else v3 ((i.set 1 (i.getD 1 0 - 3)).eraseIdx 1)⟩, ?_, rfl,
    fun k hk i => ?_⟩
  · simp [Tens.pack, Tens.expandDims, tfAxis, Tens.concatAll, Tens.concat, pure, Except.pure, bind, Except.bind]
  · fin_cases i
    · simpa using b0 k hk
    · simpa using b1 k hk
    · simpa using b2 k hk
    · simpa using b3 k hk

theorem packM4 {t0 t1 t2 t3 : Tens K} {bs : List β} {f0 f1 f2 f3 : β → Fin n → K} (h0 : t0.HV bs f0) (h1 : t1.HV bs f1) (h2 : t2.HV bs f2)
    (h3 : t3.HV bs f3) :
    ∃ r, Tens.pack [t0, t1, t2, t3] 2 = .ok r ∧ r.HM bs fun x => Matrix.of fun i => ![f0 x i, f1 x i, f2 x i, f3 x i] := by
  obtain ⟨s0, v0⟩ := t0
  obtain ⟨s1, v1⟩ := t1
  obtain ⟨s2, v2⟩ := t2
  obtain ⟨s3, v3⟩ := t3
  obtain ⟨a0, b0⟩ := h0
  obtain ⟨a1, b1⟩ := h1
  obtain ⟨a2, b2⟩ := h2
  obtain ⟨a3, b3⟩ := h3
  dsimp only at *
  subst a0 a1 a2 a3
  refine ⟨⟨[bs.length, n, 4], fun i => if i.getD 2 0 < 3 then (if i.getD 2 0 < 2 then (if i.getD 2 0 < 1 then v0 (i.eraseIdx 2) else
    v1 ((i.set 2 (i.getD 2 0 - 1)).eraseIdx 2)) else v2 ((i.set 2 (i.getD 2 0 - 2)).eraseIdx 2)) else v3 ((i.set 2 (i.getD 2 0 - 3)).eraseIdx 2)⟩, ?_, rfl,
    fun k hk i j => ?_⟩
  · simp [Tens.pack, Tens.expandDims, tfAxis, Tens.concatAll, Tens.concat, pure, Except.pure, bind, Except.bind]
  · fin_cases j
    · simpa using b0 k hk i
    · simpa using b1 k hk i
    · simpa using b2 k hk i
    · simpa using b3 k hk i

theorem packM2 {t0 t1 : Tens K} {bs : List β} {f0 f1 : β → Fin n → K} (h0 : t0.HV bs f0) (h1 : t1.HV bs f1) :
    ∃ r, Tens.pack [t0, t1] 2 = .ok r ∧ r.HM bs fun x => Matrix.of fun i => ![f0 x i, f1 x i] := by
  obtain ⟨s0, v0⟩ := t0
  obtain ⟨s1, v1⟩ := t1
  obtain ⟨a0, b0⟩ := h0
  obtain ⟨a1, b1⟩ := h1
  dsimp only at *
  subst a0 a1
  refine ⟨⟨[bs.length, n, 2], fun i => if i.getD 2 0 < 1 then v0 (i.eraseIdx 2) else v1 ((i.set 2 (i.getD 2 0 - 1)).eraseIdx 2)⟩, ?_, rfl,
    fun k hk i j => ?_⟩
  · simp [Tens.pack, Tens.expandDims, tfAxis, Tens.concatAll, Tens.concat, pure, Except.pure, bind, Except.bind]
  · fin_cases j
    · simpa using b0 k hk i
    · simpa using b1 k hk i

section Model
variable {bs : List β} {gx : β → Fin 4 → ℝ} {gu : β → Fin 2 → ℝ} {tx tu : Tens ℝ}

theorem modelF_rep (dt : ℝ) (hx : tx.HV bs gx) (hu : tu.HV bs gu) : ∃ r, tensModelF dt tx tu = .ok r ∧ r.HV bs fun b => nlModelF dt (gx b) (gu b) := by
  obtain ⟨x0, e0, h0⟩ := hx.entry 0
  obtain ⟨x1, e1, h1⟩ := hx.entry 1
  obtain ⟨x2, e2, h2⟩ := hx.entry 2
  obtain ⟨x3, e3, h3⟩ := hx.entry 3
  obtain ⟨u0, d0, k0⟩ := hu.entry 0
  obtain ⟨u1, d1, k1⟩ := hu.entry 1
  obtain ⟨w1, f1, g1⟩ := Tens.HS.bin (· * ·) h3 (h2.map Real.cos)
  obtain ⟨w2, f2, g2⟩ := Tens.HS.bin (· + ·) h0 (g1.map (· * dt))
  obtain ⟨w3, f3, g3⟩ := Tens.HS.bin (· * ·) h3 (h2.map Real.sin)
  obtain ⟨w4, f4, g4⟩ := Tens.HS.bin (· + ·) h1 (g3.map (· * dt))
  obtain ⟨w5, f5, g5⟩ := Tens.HS.bin (· + ·) h2 (k1.map (· * dt))
  obtain ⟨w6, f6, g6⟩ := Tens.HS.bin (· + ·) h3 (k0.map (· * dt))
  obtain ⟨r, e, h⟩ := pack4 g2 g4 g5 g6
  refine ⟨r, ?_, h⟩
  unfold tensModelF
  refine bstep e0 (bstep e3 (bstep e2 (bstep f1 (bstep f2 ?_))))
  refine bstep e1 (bstep e3 (bstep e2 (bstep f3 (bstep f4 ?_))))
  exact bstep e2 (bstep d1 (bstep f5 (bstep e3 (bstep d0 (bstep f6 e)))))

theorem modelFx_rep (dt : ℝ) (hx : tx.HV bs gx) : ∃ r, tensModelFx dt tx tu = .ok r ∧ r.HM bs fun b => nlModelFx dt (gx b) (gu b) := by
  obtain ⟨x0, e0, h0⟩ := hx.entry 0
  obtain ⟨x2, e2, h2⟩ := hx.entry 2
  obtain ⟨x3, e3, h3⟩ := hx.entry 3
  have one := h0.map fun _ => (1 : ℝ)
  have zero := h0.map fun _ => (0 : ℝ)
  obtain ⟨d1, f1, g1⟩ := pack4 one zero zero zero
  obtain ⟨d2, f2, g2⟩ := pack4 zero one zero zero
  obtain ⟨wa, fa, ga⟩ := Tens.HS.bin (· * ·) (h3.map (- ·)) (h2.map Real.sin)
  obtain ⟨wb, fb, gb⟩ := Tens.HS.bin (· * ·) h3 (h2.map Real.cos)
  obtain ⟨d3, f3, g3⟩ := pack4 (ga.map (· * dt)) (gb.map (· * dt)) one zero
  obtain ⟨d4, f4, g4⟩ := pack4 ((h2.map Real.cos).map (· * dt)) ((h2.map Real.sin).map (· * dt)) zero one
  obtain ⟨r, e, h⟩ := packM4 g1 g2 g3 g4
  refine ⟨r, ?_, h.fcongr fun b _ => ?_⟩
  · unfold tensModelFx
    refine bstep e0 (bstep e0 (bstep f1 (bstep f2 ?_)))
    refine bstep e3 (bstep e2 (bstep fa (bstep e3 (bstep e2 (bstep fb (bstep f3 ?_))))))
    exact bstep e2 (bstep e2 (bstep f4 e))
  · ext i j
    fin_cases i <;> fin_cases j <;> simp [nlModelFx]

theorem modelFu_rep (dt : ℝ) (hu : tu.HV bs gu) : ∃ r, tensModelFu dt tx tu = .ok r ∧ r.HM bs fun b => nlModelFu dt (gx b) (gu b) := by
  obtain ⟨u0, e0, h0⟩ := hu.entry 0
  have one := h0.map fun _ => (1 : ℝ)
  have zero := h0.map fun _ => (0 : ℝ)
  obtain ⟨d1, f1, g1⟩ := pack4 zero zero zero (one.map (· * dt))
  obtain ⟨d2, f2, g2⟩ := pack4 zero zero (one.map (· * dt)) zero
  obtain ⟨r, e, h⟩ := packM2 g1 g2
  refine ⟨r, ?_, h.fcongr fun b _ => ?_⟩
  · unfold tensModelFu
    exact bstep e0 (bstep e0 (bstep f1 (bstep f2 e)))
  · ext i j
    fin_cases i <;> fin_cases j <;> simp [nlModelFu]

end Model

end Verif
