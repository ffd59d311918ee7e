import Verif.Model.LQTTensor
import Verif.Model.ShootingTensor

/-!
Model of `/repo/parallel_control/clqt_tf.py` operation by operation on tensors.  The functional model of the same file is
`Verif.Model.CLQTTF`.

Simplifications: those of `Verif.Model.LQTTensor`; the functions `F_f, L_f, X_f, U_f, c_f, H_f, r_f` return a tensor for every time; times
are numbers and the tensors of times are lists; the parameter `param` of `rk4` is an argument of the function that is integrated;
`tf.vectorized_map` applies the function to each item, fails if it fails for one item and stacks the results; without items, which is
not used, it is an error; the level bound of `tfp.math.scan_associative` is treated in C54; the division of a tensor by zero in the
defaults, which does not raise, is outside the model.
-/

namespace Verif

variable {K : Type}

/-- The functions `F_f, L_f, X_f, U_f, c_f, H_f, r_f`, `clqt_tf.py:163`. -/
structure TensCLQT (K : Type) where
  (F L X U c H r : K → Tens K)

/-- The tensors of a terminal cost and the final time, `clqt_tf.py:140`. -/
structure TensFinal (K : Type) where
  (XT HT rT : Tens K)
  T : K

/-- `A, b, C`, `clqt_tf.py:489-508`. -/
structure TensAbc (K : Type) where
  (A b C : Tens K)

/-- Stacking of the results of `tf.vectorized_map`, `clqt_tf.py:275,401,534,697,824,1024,1126`. -/
def Tens.stackAll : List (Tens K) → Py (Tens K)
  | [] => .error .valueError
  | t :: l => Tens.stack t.shape t.val (t :: l)

/-- `t[:, 1:]`, `clqt_tf.py:861-862`. -/
def Tens.tail1 (t : Tens K) : Py (Tens K) := do t.slice 1 1 (← t.size 1)

/-- `t[:, :-1]`, `clqt_tf.py:1162,1295-1297`. -/
def Tens.init1 (t : Tens K) : Py (Tens K) := do t.slice 1 0 ((← t.size 1) - 1)

/-- `tf.reshape(t, (s[0] * s[1], s[2], ..))` where `s` is the shape of `t`, `clqt_tf.py:869-876,1164-1167,1299-1304`. -/
def Tens.mergeAxes (t : Tens K) : Py (Tens K) :=
  match t.shape with
  | a :: b :: s => t.reshape (a * b :: s)
  | _ => .error .valueError

/-- `tf.reshape(Kxs, (blocks, steps, tf.shape(Kxs)[-2], tf.shape(Kxs)[-1]))`, `clqt_tf.py:991,1093,1157`. -/
def Tens.splitM (t : Tens K) (blocks steps : ℕ) : Py (Tens K) := do
  t.reshape [blocks, steps, ← t.size (-2), ← t.size (-1)]

/-- `tf.reshape(ds, (blocks, steps, tf.shape(ds)[-1]))`, `clqt_tf.py:992,1094,1158`. -/
def Tens.splitV (t : Tens K) (blocks steps : ℕ) : Py (Tens K) := do
  t.reshape [blocks, steps, ← t.size (-1)]

/-- `tf.concat([t, tf.expand_dims(x0, axis=0)], axis=0)[:-1]`, `clqt_tf.py:681-685,808-812,1014-1015,1116-1117`. -/
def Tens.pushDrop (t x0 : Tens K) : Py (Tens K) := do
  let r ← t.concat (← x0.expandDims 0) 0
  r.init

/-- `t[0]` after integrating backwards and `t[-1]` after integrating forwards, `clqt_tf.py:688-692,815-819,1018-1019,1120-1121`. -/
def Tens.endOf (forward : Bool) (t : Tens K) : Py (Tens K) := if forward then t.last else t.select 0 0

section Field
variable [Field K]

/-- `tf.linalg.solve(A, B)`, for matrices and for batches, e.g. `clqt_tf.py:208,556`. -/
def Tens.solveT [DecidableEq K] (A B : Tens K) : Py (Tens K) :=
  match A.shape, B.shape with
  | [p, q], [p', r] =>
    if p = q ∧ p = p' then do
      let x ← Verif.solve (Matrix.of fun i j : Fin p => A.val [i.val, j.val]) (Matrix.of fun (i : Fin p) (j : Fin r) => B.val [i.val, j.val])
      return matTens x
    else .error .valueError
  | _, _ => A.solveM B

/-- `0.5 * (C + top(C))`, `clqt_tf.py:233,506,652,653,779,780`. -/
def Tens.symPart (C : Tens K) : Py (Tens K) := do
  return (← C.bin (· + ·) (← C.mT)).map (1 / 2 * ·)

/-! ### Packing -/

/-- `pack_abcej`, `clqt_tf.py:25-36`. -/
def tensPackAbcej (e : TensElem K) : Py (Tens K) := do
  let b ← e.b.expandDims (-1)
  let eta ← e.eta.expandDims (-1)
  Tens.concatAll [e.A, e.C, e.J, b, eta] (-1)

/-- `unpack_abcej`, `clqt_tf.py:38-53`. -/
def tensUnpackAbcej (x : Tens K) : Py (TensElem K) := do
  let n ← x.size (-2)
  let A ← x.slice (-1) 0 n
  let C ← x.slice (-1) n (2 * n)
  let J ← x.slice (-1) (2 * n) (3 * n)
  let b ← x.select (-1) (3 * n)
  let eta ← x.select (-1) (3 * n + 1)
  return ⟨A, b, C, eta, J⟩

/-- `pack_abc`, `clqt_tf.py:82-92`. -/
def tensPackAbc (e : TensAbc K) : Py (Tens K) := do
  let b ← e.b.expandDims (-1)
  Tens.concatAll [e.A, e.C, b] (-1)

/-- `unpack_abc`, `clqt_tf.py:94-108`. -/
def tensUnpackAbc (x : Tens K) : Py (TensAbc K) := do
  let n ← x.size (-2)
  let A ← x.slice (-1) 0 n
  let C ← x.slice (-1) n (2 * n)
  let b ← x.select (-1) (2 * n)
  return ⟨A, b, C⟩

/-- `pack_Sv`, `clqt_tf.py:110-120`; `pack_Psiphi`, `clqt_tf.py:55-65`, is the same code. -/
def tensPackSv (S v : Tens K) : Py (Tens K) := do
  let v ← v.expandDims (-1)
  Tens.concatAll [S, v] (-1)

/-- `unpack_Sv`, `clqt_tf.py:122-134`; `unpack_Psiphi`, `clqt_tf.py:67-80`, is the same code. -/
def tensUnpackSv (x : Tens K) : Py (Tens K × Tens K) := do
  let n ← x.size (-2)
  let S ← x.slice (-1) 0 n
  let v ← x.select (-1) n
  return (S, v)

/-! ### Sequential passes -/

/-- `clqt_seq_backwardpass_defaults`, `clqt_tf.py:140-160`: `dt`, `t0`, `ST`, `vT`. -/
def tensClqtSeqDefaults (d : TensFinal K) (steps : ℕ) : Py (K × K × Tens K × Tens K) := do
  let dt := d.T / steps
  let ST ← (← d.HT.mT).mm (← d.XT.mm d.HT)
  let vT ← (← d.HT.mT).mv (← d.XT.mv d.rT)
  return (dt, 0, ST, vT)

/-- `par_backwardpass_defaults`, `clqt_tf.py:565-584`; `clqt_par_fwdbwdpass_defaults`, `clqt_tf.py:1216-1229`, gives the first two. -/
def tensClqtParDefaults (d : TensFinal K) (blocks steps : ℕ) : Py (K × K × Tens K × Tens K) := do
  let dt := d.T / ((steps * blocks : ℕ) : K)
  let ST ← (← d.HT.mT).mm (← d.XT.mm d.HT)
  let vT ← (← d.HT.mT).mv (← d.XT.mv d.rT)
  return (dt, 0, ST, vT)

/-- `clqt_seq_fwdbwdpass_defaults`, `clqt_tf.py:408-426`: `dt`, `t0`, `A0`, `b0`, `C0`. -/
def tensClqtSeqFwdBwdDefaults (x0 : Tens K) (steps : ℕ) (T : K) : Py (K × K × TensAbc K) := do
  let dt := T / steps
  let A0 := Tens.const [← x0.size 0, ← x0.size 0] (0 : K)
  return (dt, 0, ⟨A0, x0, A0.map fun _ => 0⟩)

section Ordered
variable [LinearOrder K] (p : TensCLQT K)

/-- `f` of `clqt_seq_backwardpass`, `clqt_tf.py:190-215`. -/
def tensRiccatiF (x : Tens K) (t : K) : Py (Tens K) := do
  let (S, v) ← tensUnpackSv x
  let U := p.U t
  let L := p.L t
  let F := p.F t
  let X := p.X t
  let H := p.H t
  let r := p.r t
  let c := p.c t
  let LULT ← L.mm (← U.solveT (← L.mT))
  let a1 := (← (← F.mT).mm S).map (- ·)
  let a2 ← a1.bin (· - ·) (← S.mm F)
  let a3 ← a2.bin (· + ·) (← (← S.mm LULT).mm S)
  let dS ← a3.bin (· - ·) (← (← (← H.mT).mm X).mm H)
  let b1 := (← (← H.mT).mv (← X.mv r)).map (- ·)
  let b2 ← b1.bin (· + ·) (← S.mv c)
  let b3 ← b2.bin (· - ·) (← (← F.mT).mv v)
  let dv ← b3.bin (· + ·) (← S.mv (← LULT.mv v))
  tensPackSv dS dv

/-- `body` of `clqt_seq_backwardpass`, `clqt_tf.py:217-242`. -/
def tensClqtBwBody (dt : K) (carry : TensCarry K) (t : K) : Py (TensCarry K) := do
  let x ← tensPackSv carry.S carry.v
  let x ← tensRk4 (tensRiccatiF p) (-dt) x (t + dt)
  let (S, v) ← tensUnpackSv x
  let S ← S.symPart
  let U := p.U t
  let L := p.L t
  let ULT ← U.solveT (← L.mT)
  let Kx ← ULT.mm S
  let d ← ULT.mv v
  return ⟨S, v, Kx, d⟩

/-- `singlePass` of `clqt_seq_backwardpass`, `clqt_tf.py:244-272`. -/
def tensClqtBwPass (steps : ℕ) (dt : K) (t0 : K) (ST vT : Tens K) : Py (TensBw K) := do
  let L := p.L 0
  let KxT := Tens.const [← L.size (-1), ← L.size (-2)] (0 : K)
  let dT := Tens.const [← L.size (-1)] (0 : K)
  let Ts := (List.range steps).map fun k : ℕ => (k : K) * dt
  let r ← tfScanRev (tensClqtBwBody p dt) ⟨ST, vT, KxT, dT⟩ (Ts.map (t0 + ·))
  let Ss ← Tens.stack ST.shape ST.val (r.1.map TensCarry.S)
  let vs ← Tens.stack vT.shape vT.val (r.1.map TensCarry.v)
  let Kxs ← Tens.stack KxT.shape KxT.val (r.1.map TensCarry.Kx)
  let ds ← Tens.stack dT.shape dT.val (r.1.map TensCarry.d)
  let Ss ← Ss.concat (← ST.expandDims 0) 0
  let vs ← vs.concat (← vT.expandDims 0) 0
  return ⟨Ss, vs, Kxs, ds⟩

/-- `clqt_seq_backwardpass` with a batch of initial times, `clqt_tf.py:163-279`, line 275. -/
def tensClqtBwBatch (steps : ℕ) (dt : K) (t0 : List K) (ST vT : Tens K) : Py (TensBw K) := do
  let STs ← ST.items
  let vTs ← vT.items
  if STs.length ≠ t0.length ∨ vTs.length ≠ t0.length then throw .valueError
  let r ← (t0.zip (STs.zip vTs)).mapM fun e => tensClqtBwPass p steps dt e.1 e.2.1 e.2.2
  let Ss_all ← Tens.stackAll (r.map TensBw.Ss)
  let vs_all ← Tens.stackAll (r.map TensBw.vs)
  let Kxs_all ← Tens.stackAll (r.map TensBw.Kxs)
  let ds_all ← Tens.stackAll (r.map TensBw.ds)
  return ⟨Ss_all, vs_all, Kxs_all, ds_all⟩

omit [LinearOrder K] in
/-- `f_zoh` of `clqt_seq_forwardpass`, `clqt_tf.py:311-328`. -/
def tensFzoh (u x : Tens K) (t : K) : Py (Tens K) := do
  let F := p.F t
  let L := p.L t
  let c := p.c t
  let a ← (← F.mv x).bin (· + ·) (← L.mv u)
  a.bin (· + ·) c

omit [LinearOrder K] in
/-- `f_no_zoh` of `clqt_seq_forwardpass`, `clqt_tf.py:330-348`. -/
def tensFnoZoh (Kx d x : Tens K) (t : K) : Py (Tens K) := do
  let F := p.F t
  let L := p.L t
  let c := p.c t
  let u ← ((← Kx.mv x).map (- ·)).bin (· + ·) d
  let a ← (← F.mv x).bin (· + ·) (← L.mv u)
  a.bin (· + ·) c

omit [LinearOrder K] in
/-- `body` of `clqt_seq_forwardpass`, `clqt_tf.py:350-369`. -/
def tensClqtFwBody (u_zoh : Bool) (dt : K) (carry : Tens K × Tens K) (inputs : K × Tens K × Tens K) : Py (Tens K × Tens K) := do
  let (t, Kx, d) := inputs
  let (x, _) := carry
  let u ← ((← Kx.mv x).map (- ·)).bin (· + ·) d
  let x ← (if u_zoh then tensRk4 (tensFzoh p u) dt x t else tensRk4 (tensFnoZoh p Kx d) dt x t)
  return (x, u)

omit [LinearOrder K] in
/-- `singlePass` of `clqt_seq_forwardpass`, `clqt_tf.py:371-398`; the first axes must fit. -/
def tensClqtFwPass (u_zoh : Bool) (steps : ℕ) (dt t0 : K) (x0 Kxs ds : Tens K) : Py (Tens K × Tens K) := do
  let u0 ← ds.select 0 0
  let Ts := (List.range steps).map fun k : ℕ => (k : K) * dt
  let Kx ← Kxs.items
  let d ← ds.items
  if Kx.length ≠ steps ∨ d.length ≠ steps then throw .valueError
  let r ← tfScanFwdM (tensClqtFwBody p u_zoh dt) (x0, u0) ((Ts.map (t0 + ·)).zip (Kx.zip d))
  let xs ← Tens.stack x0.shape x0.val (r.map Prod.fst)
  let us ← Tens.stack u0.shape u0.val (r.map Prod.snd)
  let xs ← (← x0.expandDims 0).concat xs 0
  return (xs, us)

omit [LinearOrder K] in
/-- `clqt_seq_forwardpass` with one initial time, `clqt_tf.py:282-405`; returns `(xs, us)`. -/
def tensClqtSeqForward (u_zoh : Bool) (x0 Kxs ds : Tens K) (dt t0 : K) : Py (Tens K × Tens K) := do
  let steps ← ds.size (-2)
  tensClqtFwPass p u_zoh steps dt t0 x0 Kxs ds

omit [LinearOrder K] in
/-- `clqt_seq_forwardpass` with a batch of initial times, `clqt_tf.py:282-405`, line 401; returns `(xs, us)`. -/
def tensClqtFwBatch (u_zoh : Bool) (x0 Kxs ds : Tens K) (dt : K) (t0 : List K) : Py (Tens K × Tens K) := do
  let steps ← ds.size (-2)
  let x ← x0.items
  let Kx ← Kxs.items
  let d ← ds.items
  if x.length ≠ t0.length ∨ Kx.length ≠ t0.length ∨ d.length ≠ t0.length then throw .valueError
  let r ← (t0.zip (x.zip (Kx.zip d))).mapM fun e => tensClqtFwPass p u_zoh steps dt e.1 e.2.1 e.2.2.1 e.2.2.2
  let xs_all ← Tens.stackAll (r.map Prod.fst)
  let us_all ← Tens.stackAll (r.map Prod.snd)
  return (xs_all, us_all)

/-- `f` of `clqt_seq_fwdbwdpass`, `clqt_tf.py:456-487`. -/
def tensAbcF (x : Tens K) (t : K) : Py (Tens K) := do
  let ⟨A, b, C⟩ ← tensUnpackAbc x
  let U := p.U t
  let L := p.L t
  let F := p.F t
  let X := p.X t
  let H := p.H t
  let r := p.r t
  let c := p.c t
  let ULT ← U.solveT (← L.mT)
  let LULT ← L.mm ULT
  let dA ← (← F.mm A).bin (· - ·) (← (← (← (← C.mm (← H.mT)).mm X).mm H).mm A)
  let b1 ← (← F.mv b).bin (· + ·) (← C.mv (← (← H.mT).mv (← X.mv r)))
  let b2 ← b1.bin (· - ·) (← C.mv (← (← H.mT).mv (← X.mv (← H.mv b))))
  let db ← b2.bin (· + ·) c
  let c1 ← (← F.mm C).bin (· - ·) (← (← (← (← C.mm (← H.mT)).mm X).mm H).mm C)
  let c2 ← c1.bin (· + ·) (← C.mm (← F.mT))
  let dC ← c2.bin (· + ·) LULT
  tensPackAbc ⟨dA, db, dC⟩

/-- `body` of `clqt_seq_fwdbwdpass`, `clqt_tf.py:489-508`. -/
def tensAbcBody (dt : K) (carry : TensAbc K) (t : K) : Py (TensAbc K) := do
  let x ← tensPackAbc carry
  let x ← tensRk4 (tensAbcF p) dt x t
  let ⟨A, b, C⟩ ← tensUnpackAbc x
  let C ← C.symPart
  return ⟨A, b, C⟩

/-- `singlePass` of `clqt_seq_fwdbwdpass`, `clqt_tf.py:510-531`. -/
def tensAbcPass (steps : ℕ) (dt t0 : K) (e : TensAbc K) : Py (TensAbc K) := do
  let Ts := (List.range steps).map fun k : ℕ => (k : K) * dt
  let r ← tfScanFwdM (tensAbcBody p dt) e (Ts.map (t0 + ·))
  let As ← Tens.stack e.A.shape e.A.val (r.map TensAbc.A)
  let bs ← Tens.stack e.b.shape e.b.val (r.map TensAbc.b)
  let Cs ← Tens.stack e.C.shape e.C.val (r.map TensAbc.C)
  let As ← (← e.A.expandDims 0).concat As 0
  let bs ← (← e.b.expandDims 0).concat bs 0
  let Cs ← (← e.C.expandDims 0).concat Cs 0
  return ⟨As, bs, Cs⟩

/-- `clqt_seq_fwdbwdpass` with a batch of initial times, `clqt_tf.py:429-538`, line 534. -/
def tensAbcBatch (steps : ℕ) (dt : K) (t0 : List K) (e : TensAbc K) : Py (TensAbc K) := do
  let A ← e.A.items
  let b ← e.b.items
  let C ← e.C.items
  if A.length ≠ t0.length ∨ b.length ≠ t0.length ∨ C.length ≠ t0.length then throw .valueError
  let r ← (t0.zip (A.zip (b.zip C))).mapM fun a => tensAbcPass p steps dt a.1 ⟨a.2.1, a.2.2.1, a.2.2.2⟩
  let As_all ← Tens.stackAll (r.map TensAbc.A)
  let bs_all ← Tens.stackAll (r.map TensAbc.b)
  let Cs_all ← Tens.stackAll (r.map TensAbc.C)
  return ⟨As_all, bs_all, Cs_all⟩

/-- `clqt_combine_fwdbwd`, `clqt_tf.py:541-559`; `As` is not used.  Returns `(xs, us)`. -/
def tensClqtCombine (Kxs ds Ss vs bs Cs : Tens K) : Py (Tens K × Tens K) := do
  let M ← (Tens.eye2 (← Cs.size (-1)) : Tens K).bin (· + ·) (← Cs.mm Ss)
  let rh ← (← bs.bin (· + ·) (← Cs.mv vs)).expandDims (-1)
  let xs ← (← M.solveT rh).select (-1) 0
  let us ← ((← Kxs.mv (← xs.init)).map (- ·)).bin (· + ·) ds
  return (xs, us)

/-! ### Parallel backward pass -/

/-- `f` of `par_backwardpass_init_bw`, `clqt_tf.py:603-634`. -/
def tensElemBwF (x : Tens K) (t : K) : Py (Tens K) := do
  let ⟨A, _, _, eta, J⟩ ← tensUnpackAbcej x
  let U := p.U t
  let L := p.L t
  let F := p.F t
  let X := p.X t
  let H := p.H t
  let r := p.r t
  let c := p.c t
  let LULT ← L.mm (← U.solveT (← L.mT))
  let dA ← (← (← A.mm LULT).mm J).bin (· - ·) (← A.mm F)
  let db ← ((← A.mv (← LULT.mv eta)).map (- ·)).bin (· - ·) (← A.mv c)
  let dC := (← (← A.mm LULT).mm (← A.mT)).map (- ·)
  let e1 := (← (← H.mT).mv (← X.mv r)).map (- ·)
  let e2 ← e1.bin (· + ·) (← J.mv (← LULT.mv eta))
  let e3 ← e2.bin (· - ·) (← (← F.mT).mv eta)
  let deta ← e3.bin (· + ·) (← J.mv c)
  let j1 := (← (← (← H.mT).mm X).mm H).map (- ·)
  let j2 ← j1.bin (· + ·) (← (← J.mm LULT).mm J)
  let j3 ← j2.bin (· - ·) (← J.mm F)
  let dJ ← j3.bin (· - ·) (← (← F.mT).mm J)
  tensPackAbcej ⟨dA, db, dC, deta, dJ⟩

/-- `f` of `par_backwardpass_init_fw`, `clqt_tf.py:729-761`. -/
def tensElemFwF (x : Tens K) (t : K) : Py (Tens K) := do
  let ⟨A, b, C, _, _⟩ ← tensUnpackAbcej x
  let U := p.U t
  let L := p.L t
  let F := p.F t
  let X := p.X t
  let H := p.H t
  let r := p.r t
  let c := p.c t
  let LULT ← L.mm (← U.solveT (← L.mT))
  let dA ← (← F.mm A).bin (· - ·) (← (← (← (← C.mm (← H.mT)).mm X).mm H).mm A)
  let b1 ← (← F.mv b).bin (· + ·) (← C.mv (← (← H.mT).mv (← X.mv r)))
  let b2 ← b1.bin (· - ·) (← C.mv (← (← H.mT).mv (← X.mv (← H.mv b))))
  let db ← b2.bin (· + ·) c
  let c1 ← (← F.mm C).bin (· - ·) (← (← (← (← C.mm (← H.mT)).mm X).mm H).mm C)
  let c2 ← c1.bin (· + ·) (← C.mm (← F.mT))
  let dC ← c2.bin (· + ·) LULT
  let e1 ← (← A.mT).mv (← (← H.mT).mv (← X.mv r))
  let deta ← e1.bin (· - ·) (← (← A.mT).mv (← (← H.mT).mv (← X.mv (← H.mv b))))
  let dJ ← (← (← (← (← A.mT).mm (← H.mT)).mm X).mm H).mm A
  tensPackAbcej ⟨dA, db, dC, deta, dJ⟩

omit [LinearOrder K] in
/-- `body` of `par_backwardpass_init_bw`, `clqt_tf.py:636-655`, and of `par_backwardpass_init_fw`, `clqt_tf.py:763-782`; `h` is the time
step of the integrator and `τ` its initial time. -/
def tensElemBody (f : Tens K → K → Py (Tens K)) (h : K) (e : TensElem K) (τ : K) : Py (TensElem K) := do
  let x ← tensPackAbcej e
  let x ← tensRk4 f h x τ
  let ⟨A, b, C, eta, J⟩ ← tensUnpackAbcej x
  let C ← C.symPart
  let J ← J.symPart
  return ⟨A, b, C, eta, J⟩

omit [LinearOrder K] in
/-- `A0, b0, C0, eta0, J0`, `clqt_tf.py:658-662,785-789`; `n` is `ST.shape[0]`. -/
def tensElem0 (n : ℕ) : Py (TensElem K) := do
  let A0 : Tens K := Tens.eye2 n
  let b0 := (← A0.select 1 0).map fun _ => (0 : K)
  let C0 := A0.map fun _ => (0 : K)
  let eta0 := (← A0.select 1 0).map fun _ => (0 : K)
  let J0 := A0.map fun _ => (0 : K)
  return ⟨A0, b0, C0, eta0, J0⟩

/-- `singlePass` of `par_backwardpass_init_bw`, `clqt_tf.py:665-694`, and of `par_backwardpass_init_fw`, `clqt_tf.py:792-821`. -/
def tensBlockElem (forward : Bool) (steps : ℕ) (dt : K) (e : TensElem K) (t0 : K) : Py (TensElem K) := do
  let Ts := (List.range steps).map fun k : ℕ => (k : K) * dt
  let es ← (if forward then tfScanFwdM (fun e t => tensElemBody (tensElemFwF p) dt e t) e (Ts.map (t0 + ·))
    else do return (← tfScanRev (fun e t => tensElemBody (tensElemBwF p) (-dt) e (t + dt)) e (Ts.map (t0 + ·))).1)
  let As ← Tens.stack e.A.shape e.A.val (es.map TensElem.A)
  let bs ← Tens.stack e.b.shape e.b.val (es.map TensElem.b)
  let Cs ← Tens.stack e.C.shape e.C.val (es.map TensElem.C)
  let etas ← Tens.stack e.eta.shape e.eta.val (es.map TensElem.eta)
  let Js ← Tens.stack e.J.shape e.J.val (es.map TensElem.J)
  let As ← As.pushDrop e.A
  let bs ← bs.pushDrop e.b
  let Cs ← Cs.pushDrop e.C
  let etas ← etas.pushDrop e.eta
  let Js ← Js.pushDrop e.J
  return ⟨← As.endOf forward, ← bs.endOf forward, ← Cs.endOf forward, ← etas.endOf forward, ← Js.endOf forward⟩

/-- `par_backwardpass_init_bw`, `clqt_tf.py:587-711`, and `par_backwardpass_init_fw`, `clqt_tf.py:714-838`. -/
def tensClqtParInit (forward : Bool) (blocks steps : ℕ) (dt t0 : K) (ST vT : Tens K) : Py (TensElem K) := do
  let e ← tensElem0 (← ST.size 0)
  let t0s := (List.range blocks).map fun k : ℕ => t0 + (k : K) * steps * dt
  let r ← t0s.mapM (tensBlockElem p forward steps dt e)
  let As ← Tens.stackAll (r.map TensElem.A)
  let bs ← Tens.stackAll (r.map TensElem.b)
  let Cs ← Tens.stackAll (r.map TensElem.C)
  let etas ← Tens.stackAll (r.map TensElem.eta)
  let Js ← Tens.stackAll (r.map TensElem.J)
  let AT := ST.map fun _ => (0 : K)
  (⟨As, bs, Cs, etas, Js⟩ : TensElem K).push ⟨AT, e.b, e.C, vT, ST⟩

/-- `clqt_par_backwardpass_extract`, `clqt_tf.py:841-883`. -/
def tensClqtParBackwardExtract (etas Js : Tens K) (steps : ℕ) (dt t0 : K) : Py (TensBw K) := do
  let blocks := (← Js.size 0) - 1
  let t0s := (List.range blocks).map fun k : ℕ => t0 + (k : K) * steps * dt
  let ⟨Ss, vs, Kxs, ds⟩ ← tensClqtBwBatch p steps dt t0s (← Js.tail) (← etas.tail)
  let Ss ← Ss.tail1
  let vs ← vs.tail1
  let Ss ← Ss.mergeAxes
  let vs ← vs.mergeAxes
  let Kxs ← Kxs.mergeAxes
  let ds ← ds.mergeAxes
  let S0 ← Js.select 0 0
  let v0 ← etas.select 0 0
  let Ss ← (← S0.expandDims 0).concat Ss 0
  let vs ← (← v0.expandDims 0).concat vs 0
  return ⟨Ss, vs, Kxs, ds⟩

/-- `clqt_par_backwardpass`, `clqt_tf.py:886-926`. -/
def tensClqtParBackward (scan : AScan) (blocks steps : ℕ) (dt t0 : K) (ST vT : Tens K) (forward : Bool := false) : Py (TensBw K) := do
  let elems ← tensClqtParInit p forward blocks steps dt t0 ST vT
  let rev_elems ← elems.reverse
  let rev_elems ← rev_elems.scanAssoc scan tensLqtCombVRev
  let etas ← rev_elems.eta.reverse
  let Js ← rev_elems.J.reverse
  tensClqtParBackwardExtract p etas Js steps dt t0

/-! ### Parallel forward pass -/

omit [LinearOrder K] in
/-- `f` of `clqt_par_forwardpass_init_fw`, `clqt_tf.py:950-970`. -/
def tensPsiFwF (Kx d x : Tens K) (t : K) : Py (Tens K) := do
  let (Psi, phi) ← tensUnpackSv x
  let L := p.L t
  let tF ← (p.F t).bin (· - ·) (← L.mm Kx)
  let tc ← (p.c t).bin (· + ·) (← L.mv d)
  let dPsi ← tF.mm Psi
  let dphi ← (← tF.mv phi).bin (· + ·) tc
  tensPackSv dPsi dphi

omit [LinearOrder K] in
/-- `f` of `clqt_par_forwardpass_init_bw`, `clqt_tf.py:1052-1072`. -/
def tensPsiBwF (Kx d x : Tens K) (t : K) : Py (Tens K) := do
  let (Psi, _) ← tensUnpackSv x
  let L := p.L t
  let tF ← (p.F t).bin (· - ·) (← L.mm Kx)
  let tc ← (p.c t).bin (· + ·) (← L.mv d)
  let dPsi := (← Psi.mm tF).map (- ·)
  let dphi := (← Psi.mv tc).map (- ·)
  tensPackSv dPsi dphi

omit [LinearOrder K] in
/-- `body` of `clqt_par_forwardpass_init_fw`, `clqt_tf.py:972-989`, and of `clqt_par_forwardpass_init_bw`, `clqt_tf.py:1074-1091`; `h` is the
time step of the integrator and `τ` its initial time. -/
def tensPsiBody (f : Tens K → Tens K → Tens K → K → Py (Tens K)) (h : K) (e : Tens K × Tens K) (τ : K) (g : Tens K × Tens K) :
    Py (Tens K × Tens K) := do
  let x ← tensPackSv e.1 e.2
  let x ← tensRk4 (f g.1 g.2) h x τ
  tensUnpackSv x

omit [LinearOrder K] in
/-- `singlePass` of `clqt_par_forwardpass_init_fw`, `clqt_tf.py:997-1021`, and of `clqt_par_forwardpass_init_bw`, `clqt_tf.py:1100-1123`; `e` is
`(Psi0, phi0)`. -/
def tensPsiElem (forward : Bool) (steps : ℕ) (dt : K) (e : Tens K × Tens K) (t0 : K) (Kxs ds : Tens K) : Py (Tens K × Tens K) := do
  let Ts := (List.range steps).map fun k : ℕ => (k : K) * dt
  let Kx ← Kxs.items
  let d ← ds.items
  if Kx.length ≠ steps ∨ d.length ≠ steps then throw .valueError
  let i := (Ts.map (t0 + ·)).zip (Kx.zip d)
  let es ← (if forward then tfScanFwdM (fun e (i : K × Tens K × Tens K) => tensPsiBody (tensPsiFwF p) dt e i.1 i.2) e i
    else do return (← tfScanRev (fun e (i : K × Tens K × Tens K) => tensPsiBody (tensPsiBwF p) (-dt) e (i.1 + dt) i.2) e i).1)
  let Psis ← Tens.stack e.1.shape e.1.val (es.map Prod.fst)
  let phis ← Tens.stack e.2.shape e.2.val (es.map Prod.snd)
  let Psis ← Psis.pushDrop e.1
  let phis ← phis.pushDrop e.2
  return (← Psis.endOf forward, ← phis.endOf forward)

omit [LinearOrder K] in
/-- `clqt_par_forwardpass_init_fw`, `clqt_tf.py:933-1032`, and `clqt_par_forwardpass_init_bw`, `clqt_tf.py:1035-1134`. -/
def tensClqtParForwardInit (forward : Bool) (blocks steps : ℕ) (x0 Kxs ds : Tens K) (dt t0 : K) : Py (Tens K × Tens K) := do
  let Kxs ← Kxs.splitM blocks steps
  let ds ← ds.splitV blocks steps
  let Psi0 := (Tens.eye2 (← x0.size (-1)) : Tens K)
  let phi0 := x0.map fun _ => (0 : K)
  let t0s := (List.range blocks).map fun k : ℕ => t0 + (k : K) * steps * dt
  let Kx ← Kxs.items
  let d ← ds.items
  let r ← (t0s.zip (Kx.zip d)).mapM fun a => tensPsiElem p forward steps dt (Psi0, phi0) a.1 a.2.1 a.2.2
  let Psis ← Tens.stackAll (r.map Prod.fst)
  let phis ← Tens.stackAll (r.map Prod.snd)
  let Psi1 := (Tens.eye2 (← x0.size (-1)) : Tens K)
  let Psis ← (← Psi1.expandDims 0).concat Psis 0
  let phis ← (← x0.expandDims 0).concat phis 0
  return (Psis, phis)

omit [LinearOrder K] in
/-- `clqt_par_forwardpass_extract`, `clqt_tf.py:1137-1173`; of `Psis` only the number of items is used.  Returns `(xs, us)`. -/
def tensClqtParForwardExtract (Kxs ds Psis phis : Tens K) (steps : ℕ) (dt t0 : K) (u_zoh : Bool) : Py (Tens K × Tens K) := do
  let blocks := (← Psis.size 0) - 1
  let t0s := (List.range blocks).map fun k : ℕ => t0 + (k : K) * steps * dt
  let Kxs ← Kxs.splitM blocks steps
  let ds ← ds.splitV blocks steps
  let (xs, us) ← tensClqtFwBatch p u_zoh (← phis.init) Kxs ds dt t0s
  let xs ← xs.init1
  let xs ← xs.mergeAxes
  let us ← us.mergeAxes
  let xT ← phis.last
  let xs ← xs.concat (← xT.expandDims 0) 0
  return (xs, us)

omit [LinearOrder K] in
/-- `clqt_par_forwardpass`, `clqt_tf.py:1177-1210`; returns `(xs, us)`. -/
def tensClqtParForward (scan : AScan) (blocks steps : ℕ) (x0 Kxs ds : Tens K) (dt t0 : K) (forward : Bool := true) (u_zoh : Bool := false) :
    Py (Tens K × Tens K) := do
  let elems ← tensClqtParForwardInit p forward blocks steps x0 Kxs ds dt t0
  let (Psis, phis) ← tensScanPair scan tensLqtCombF elems
  tensClqtParForwardExtract p Kxs ds Psis phis steps dt t0 u_zoh

/-! ### Parallel forward-backward pass -/

/-- `par_fwdbwdpass_init`, `clqt_tf.py:1232-1268`. -/
def tensClqtParFwdBwdInit (forward : Bool) (blocks steps : ℕ) (x0 : Tens K) (dt t0 : K) : Py (TensElem K) := do
  let ST := (Tens.eye2 (← x0.size (-1)) : Tens K)
  let vT := Tens.const [← x0.size (-1)] (0 : K)
  let ⟨As, bs, Cs, etas, Js⟩ ← tensClqtParInit p forward blocks steps dt t0 ST vT
  let A0 := Tens.const [← x0.size 0, ← x0.size 0] (0 : K)
  let C0 := A0.map fun _ => (0 : K)
  let eta0 := (← A0.select 1 0).map fun _ => (0 : K)
  let J0 := A0.map fun _ => (0 : K)
  (⟨A0, x0, C0, eta0, J0⟩ : TensElem K).cons ⟨← As.init, ← bs.init, ← Cs.init, ← etas.init, ← Js.init⟩

/-- `clqt_par_fwdbwdpass_extract`, `clqt_tf.py:1271-1313`; the results `As_all` are not used.  Returns `(xs, us)`. -/
def tensClqtParFwdBwdExtract (As bs Cs Ss vs Kxs ds : Tens K) (steps : ℕ) (dt t0 : K) : Py (Tens K × Tens K) := do
  let blocks := (← As.size 0) - 1
  let t0s := (List.range blocks).map fun k : ℕ => t0 + (k : K) * steps * dt
  let ⟨_, bs_all, Cs_all⟩ ← tensAbcBatch p steps dt t0s ⟨← As.init, ← bs.init, ← Cs.init⟩
  let bT ← (← bs_all.last).last
  let CT ← (← Cs_all.last).last
  let bs_all ← bs_all.init1
  let Cs_all ← Cs_all.init1
  let bs_all ← bs_all.mergeAxes
  let Cs_all ← Cs_all.mergeAxes
  let bs_all ← bs_all.concat (← bT.expandDims 0) 0
  let Cs_all ← Cs_all.concat (← CT.expandDims 0) 0
  tensClqtCombine Kxs ds Ss vs bs_all Cs_all

/-- `clqt_par_fwdbwdpass`, `clqt_tf.py:1316-1347`; returns `(xs, us)`. -/
def tensClqtParFwdBwd (scan : AScan) (blocks steps : ℕ) (x0 Ss vs Kxs ds : Tens K) (dt t0 : K) (forward : Bool := true) :
    Py (Tens K × Tens K) := do
  let elems ← tensClqtParFwdBwdInit p forward blocks steps x0 dt t0
  let elems ← elems.scanAssoc scan tensLqtCombV
  tensClqtParFwdBwdExtract p elems.A elems.b elems.C Ss vs Kxs ds steps dt t0

end Ordered

end Field

end Verif
