import Verif.Model.LQT
import Verif.Model.TFScan

/-!
Model of `/repo/parallel_control/lqt_tf.py`.

Simplifications: exact arithmetic over an ordered field; the batched tensors, which have a common first
dimension, are lists of steps (TensorFlow rejects unequal lengths before computing anything); an operation on
batched tensors fails if it fails for one item; all TensorFlow errors (`InvalidArgumentError`, raised for a
singular or not positive definite matrix and for an empty tensor) are `linAlgError` and `valueError`;
`tfp.math.scan_associative` is any function with the contract `IsAssocScan`.
-/

namespace Verif

open Matrix

/-- One step of the tensors `Fs, cs, Ls, Hs, rs, Xs, Us`, `lqt_tf.py:103`; all `rs` have the dimension `p`. -/
structure TStage (n m p : ℕ) (K : Type) where
  F : Matrix (Fin n) (Fin n) K
  c : Fin n → K
  L : Matrix (Fin n) (Fin m) K
  H : Matrix (Fin p) (Fin n) K
  r : Fin p → K
  X : Matrix (Fin p) (Fin p) K
  U : Matrix (Fin m) (Fin m) K

/-- Arguments of `lqt_seq_backwardpass` and `lqt_par_backwardpass`, `lqt_tf.py:103,292`. -/
structure TFLQT (n m p q : ℕ) (K : Type) where
  stages : List (TStage n m p K)
  HT : Matrix (Fin q) (Fin n) K
  rT : Fin q → K
  XT : Matrix (Fin q) (Fin q) K

/-- One step of the general tensors with `Ms` and `ss`, `lqt_tf.py:553`. -/
structure GStage (n m p : ℕ) (K : Type) extends TStage n m p K where
  M : Matrix (Fin p) (Fin m) K
  s : Fin m → K

/-- Tensors of a problem in general form, `lqt_tf.py:62`. -/
structure TFGen (n m p q : ℕ) (K : Type) where
  stages : List (GStage n m p K)
  HT : Matrix (Fin q) (Fin n) K
  rT : Fin q → K
  XT : Matrix (Fin q) (Fin q) K

/-- One step of the tensors `Fs, cs, Ls, Kxs, ds`, `lqt_tf.py:155,396`. -/
structure TFwd (n m : ℕ) (K : Type) where
  F : Matrix (Fin n) (Fin n) K
  c : Fin n → K
  L : Matrix (Fin n) (Fin m) K
  Kx : Matrix (Fin m) (Fin n) K
  d : Fin m → K

variable {n m p q : ℕ} {K : Type} [Field K]

/-- The symmetric matrix described by the lower triangle, the only part of its argument that
`tf.linalg.cholesky` reads (e.g. `lqt_tf.py:132`). -/
def lowerSym (A : Matrix (Fin n) (Fin n) K) : Matrix (Fin n) (Fin n) K :=
  Matrix.of fun i j => if j ≤ i then A i j else A j i

section Ordered
variable [LinearOrder K]

/-- `tf.linalg.cholesky` (e.g. `lqt_tf.py:132`): an error unless positive definite; the factorisation is
represented by the inverse. -/
def tfCholesky (A : Matrix (Fin n) (Fin n) K) : Py (Matrix (Fin n) (Fin n) K) :=
  if choPD (lowerSym A) then .ok (minv (lowerSym A)) else .error .linAlgError

/-- Gain and offset from the next value function, `lqt_tf.py:132-135` (also 330-333). -/
def TStage.gains (s : TStage n m p K) (S : Matrix (Fin n) (Fin n) K) (v : Fin n → K) :
    Py (Matrix (Fin m) (Fin n) K × (Fin m → K)) := do
  let CF ← tfCholesky (s.U + s.Lᵀ * S * s.L)
  let Kx := choSolve CF (s.Lᵀ * S * s.F)
  let rh := s.Lᵀ *ᵥ (v - S *ᵥ s.c)
  let d := choSolveV CF rh
  return (Kx, d)

/-- The carry and output `(S, v, Kx, d)` of the scan, `lqt_tf.py:139`. -/
structure TCarry (n m : ℕ) (K : Type) where
  S : Matrix (Fin n) (Fin n) K
  v : Fin n → K
  Kx : Matrix (Fin m) (Fin n) K
  d : Fin m → K

/-- `body` of `lqt_seq_backwardpass`, `lqt_tf.py:119-139`. -/
def TStage.bwBody (s : TStage n m p K) (st : TCarry n m K) : Py (TCarry n m K) := do
  let Kd ← s.gains st.S st.v
  let v := s.Hᵀ *ᵥ (s.X *ᵥ s.r) + (s.F - s.L * Kd.1)ᵀ *ᵥ (st.v - st.S *ᵥ s.c)
  let S := s.Fᵀ * (st.S * (s.F - s.L * Kd.1)) + s.Hᵀ * (s.X * s.H)
  return ⟨S, v, Kd.1, Kd.2⟩

/-- `tf.scan(.., reverse=True)` (e.g. `lqt_tf.py:145-147`): the outputs in the order of the inputs, with the
last carry. -/
def tfScanRev {α β : Type} (body : β → α → Py β) (init : β) : List α → Py (List β × β)
  | [] => .ok ([], init)
  | a :: l => do
    let r ← tfScanRev body init l
    let b ← body r.2 a
    return (b :: r.1, b)

/-- `tf.scan` (e.g. `lqt_tf.py:192-193`): the outputs. -/
def tfScanFwd {α β : Type} (body : β → α → β) (init : β) : List α → List β
  | [] => []
  | a :: l => body init a :: tfScanFwd body (body init a) l

/-- `lqt_seq_backwardpass`, `lqt_tf.py:102-152`; returns `(Ss, vs, Kxs, ds)` as the record `BwResult`. -/
def TFLQT.seqBackward (P : TFLQT n m p q K) : Py (BwResult n m K) := do
  let vT := P.HTᵀ *ᵥ (P.XT *ᵥ P.rT)
  let ST := P.HTᵀ * (P.XT * P.HT)
  let r ← tfScanRev (fun st s => TStage.bwBody s st) ⟨ST, vT, 0, 0⟩ P.stages
  return ⟨r.1.map TCarry.Kx, r.1.map TCarry.d, r.1.map TCarry.S ++ [ST], r.1.map TCarry.v ++ [vT]⟩

/-- One item of `lqt_par_backwardpass_init_most`, `lqt_tf.py:203-228`; the copy `lqt_par_fwdbwdpass_init_most`,
`lqt_tf.py:451-475`, is the same. -/
def TStage.elem (s : TStage n m p K) : Py (Elem n K) := do
  let W ← solve s.U s.Lᵀ
  return ⟨s.F, s.c, s.L * W, s.Hᵀ *ᵥ (s.X *ᵥ s.r), s.Hᵀ * (s.X * s.H)⟩

/-- `lqt_par_backwardpass_init_last`, `lqt_tf.py:230-252`. -/
def TFLQT.lastElem (P : TFLQT n m p q K) : Elem n K :=
  ⟨0, 0, 0, P.HTᵀ *ᵥ (P.XT *ᵥ P.rT), P.HTᵀ * (P.XT * P.HT)⟩

/-- `lqt_par_comb_V`, `lqt_tf.py:254-277`. -/
def tfCombV (ij jk : Elem n K) : Py (Elem n K) := do
  let lu ← luFactor (1 + ij.C * jk.J)
  let A := jk.A * luSolve lu ij.A
  let b := jk.A *ᵥ luSolveV lu (ij.b + ij.C *ᵥ jk.eta) + jk.b
  let C := jk.A * luSolve lu (ij.C * jk.Aᵀ) + jk.C
  let lu ← luFactor (1 + jk.J * ij.C)
  let eta := ij.Aᵀ *ᵥ luSolveV lu (jk.eta - jk.J *ᵥ ij.b) + ij.eta
  let J := ij.Aᵀ * luSolve lu (jk.J * ij.A) + ij.J
  return ⟨A, b, C, eta, J⟩

/-- `lqt_par_comb_V_rev`, `lqt_tf.py:279-289`. -/
def tfCombVRev (jk ij : Elem n K) : Py (Elem n K) := tfCombV ij jk

/-- `lqt_par_backwardpass`, `lqt_tf.py:291-335`. -/
def TFLQT.parBackward (scan : (Elem n K → Elem n K → Py (Elem n K)) → List (Elem n K) → Py (List (Elem n K)))
    (P : TFLQT n m p q K) : Py (BwResult n m K) := do
  let most ← P.stages.mapM TStage.elem
  let elems := most ++ [P.lastElem]
  let revElems ← scan tfCombVRev elems.reverse
  let vs := revElems.reverse.map Elem.eta
  let Ss := revElems.reverse.map Elem.J
  let gs ← (P.stages.zip (Ss.tail.zip vs.tail)).mapM (fun a => a.1.gains a.2.1 a.2.2)
  return ⟨gs.map Prod.fst, gs.map Prod.snd, Ss, vs⟩

/-- `lqt_par_fwdbwdpass`, `lqt_tf.py:477-518`, with `init_first`, `lqt_tf.py:431-449`; returns `(xs, us)`. -/
def TFLQT.parFwdBwd (scan : (Elem n K → Elem n K → Py (Elem n K)) → List (Elem n K) → Py (List (Elem n K)))
    (P : TFLQT n m p q K) (x0 : Fin n → K) (bw : BwResult n m K) : Py (List (Fin n → K) × List (Fin m → K)) := do
  let most ← P.stages.mapM TStage.elem
  let elems ← scan tfCombV (⟨0, x0, 0, 0, 0⟩ :: most)
  let xs ← (elems.zip (bw.S_list.zip bw.v_list)).mapM (fun a =>
    solveV (1 + a.1.C * a.2.1) (a.1.b + a.1.C *ᵥ a.2.2))
  let us := List.zipWith (fun Kd x => -(Kd.1 *ᵥ x) + Kd.2) (bw.Kx_list.zip bw.d_list) xs.dropLast
  return (xs, us)

/-- `lqt_gen_to_canon`, `lqt_tf.py:552-578`, for one step: the tensors with the new `F`, `c`, `X`. -/
def GStage.canon (g : GStage n m p K) : Py (TStage n m p K) := do
  let CF ← tfCholesky g.U
  let Fn := g.F - g.L * choSolve CF (g.Mᵀ * g.H)
  let tmp := choSolveV CF (g.Mᵀ *ᵥ g.r)
  let cn := g.c + g.L *ᵥ (tmp + g.s)
  let Xn := g.X - g.M * choSolve CF g.Mᵀ
  return { g.toTStage with F := Fn, c := cn, X := Xn }

/-- `lqt_canon_to_gen`, `lqt_tf.py:580-602`, for one step: `(Kx, d)`. -/
def GStage.back (g : GStage n m p K) (Kx : Matrix (Fin m) (Fin n) K) (d : Fin m → K) :
    Py (Matrix (Fin m) (Fin n) K × (Fin m → K)) := do
  let CF ← tfCholesky g.U
  let Kxn := Kx + choSolve CF (g.Mᵀ * g.H)
  let tmp := choSolveV CF (g.Mᵀ *ᵥ g.r)
  let dn := d + tmp + g.s
  return (Kxn, dn)

/-- `lqt_gen_to_canon`, `lqt_tf.py:552-578`, with the unchanged terminal data. -/
def TFGen.canon (P : TFGen n m p q K) : Py (TFLQT n m p q K) := do
  let cs ← P.stages.mapM GStage.canon
  return ⟨cs, P.HT, P.rT, P.XT⟩

/-- `lqt_canon_to_gen`, `lqt_tf.py:580-602`. -/
def TFGen.back (P : TFGen n m p q K) (Kxs : List (Matrix (Fin m) (Fin n) K)) (ds : List (Fin m → K)) :
    Py (List (Matrix (Fin m) (Fin n) K × (Fin m → K))) :=
  (P.stages.zip (Kxs.zip ds)).mapM fun a => a.1.back a.2.1 a.2.2

end Ordered

/-- `body` of `lqt_seq_forwardpass`, `lqt_tf.py:171-188`; carry `(x, u)`. -/
def TFwd.body (st : (Fin n → K) × (Fin m → K)) (g : TFwd n m K) : (Fin n → K) × (Fin m → K) :=
  let u := -(g.Kx *ᵥ st.1) + g.d
  let x := g.F *ᵥ st.1 + g.c + g.L *ᵥ u
  (x, u)

/-- `lqt_seq_forwardpass`, `lqt_tf.py:154-197`; returns `(xs, us)`; `Ls[0,0,:]` (line 190) fails when `T = 0`. -/
def lqtTfSeqForward (x0 : Fin n → K) (gs : List (TFwd n m K)) : Py (List (Fin n → K) × List (Fin m → K)) := do
  if gs.isEmpty then throw .valueError
  let r := tfScanFwd TFwd.body (x0, 0) gs
  return (x0 :: r.map Prod.fst, r.map Prod.snd)

/-- `lqt_par_comb_f`, `lqt_tf.py:378-393`. -/
def tfCombF (ij jk : Matrix (Fin n) (Fin n) K × (Fin n → K)) : Matrix (Fin n) (Fin n) K × (Fin n → K) :=
  (jk.1 * ij.1, jk.1 *ᵥ ij.2 + jk.2)

/-- `lqt_par_forwardpass_init_first`, `lqt_tf.py:341-358`. -/
def TFwd.first (x0 : Fin n → K) (g : TFwd n m K) : Matrix (Fin n) (Fin n) K × (Fin n → K) :=
  (0, (g.F - g.L * g.Kx) *ᵥ x0 + g.c + g.L *ᵥ g.d)

/-- One item of `lqt_par_forwardpass_init_most`, `lqt_tf.py:360-376`. -/
def TFwd.most (g : TFwd n m K) : Matrix (Fin n) (Fin n) K × (Fin n → K) := (g.F - g.L * g.Kx, g.c + g.L *ᵥ g.d)

/-- `lqt_par_forwardpass`, `lqt_tf.py:395-426`; `Fs[0]` (line 412) fails when `T = 0`. -/
def lqtTfParForward (scan : (Matrix (Fin n) (Fin n) K × (Fin n → K) → Matrix (Fin n) (Fin n) K × (Fin n → K) →
      Py (Matrix (Fin n) (Fin n) K × (Fin n → K))) → List (Matrix (Fin n) (Fin n) K × (Fin n → K)) →
      Py (List (Matrix (Fin n) (Fin n) K × (Fin n → K))))
    (x0 : Fin n → K) (gs : List (TFwd n m K)) : Py (List (Fin n → K) × List (Fin m → K)) := do
  match gs with
  | [] => throw .valueError
  | g :: rest => do
    let elems ← scan (fun a b => .ok (tfCombF a b)) (TFwd.first x0 g :: rest.map TFwd.most)
    let xs := x0 :: elems.map Prod.snd
    let us := List.zipWith (fun (h : TFwd n m K) x => -(h.Kx *ᵥ x) + h.d) (g :: rest) xs.dropLast
    return (xs, us)

/-- `lqt_cost`, `lqt_tf.py:523-547`: each `tf.reduce_sum(mv(W, y) * y)` is a dot product per step. -/
def TFLQT.cost (P : TFLQT n m p q K) (xs : List (Fin n → K)) (us : List (Fin m → K)) : Py K :=
  match xs.getLast? with
  | none => .error .valueError
  | some xT =>
    let drT := P.HT *ᵥ xT - P.rT
    let drs := List.zipWith (fun (s : TStage n m p K) x => (s, s.H *ᵥ x - s.r)) P.stages xs.dropLast
    .ok ((1 / 2) * ((P.XT *ᵥ drT) ⬝ᵥ drT) + (1 / 2) * (drs.map fun a => (a.1.X *ᵥ a.2) ⬝ᵥ a.2).sum +
      (1 / 2) * (List.zipWith (fun (s : TStage n m p K) u => (s.U *ᵥ u) ⬝ᵥ u) P.stages us).sum)

end Verif
