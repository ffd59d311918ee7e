import Verif.Model.CondensingTensor
import Verif.Model.CLQTTF

/-!
Model of `/repo/parallel_control/lqt_tf.py` operation by operation on tensors.  The functional model of the same file is
`Verif.Model.LQTTF`; the conversions `lqt_np_to_tf` and `lqt_np_to_tf_gen` are in `Verif.Model.SpeedLinear`.

Simplifications: those of `Verif.Model.CondensingTensor`; the factors that `tf.linalg.cholesky` and `tf.linalg.lu` return are represented
by the inverse of the matrix, as in `Verif.Model.LQTTF`, so that the solvers multiply; an operation on a batch fails if it fails for one
item; `tfp.math.scan_associative` is a parameter applied to the items along the first axis.
-/

namespace Verif

variable {K : Type}

/-- The tensor of a matrix, what `tf.linalg.cholesky` and `tf.linalg.solve` compute for one item, e.g. `lqt_tf.py:132,225`. -/
def matTens [Zero K] {p q : ℕ} (A : Matrix (Fin p) (Fin q) K) : Tens K :=
  ⟨[p, q], fun i => if h : i.getD 0 0 < p ∧ i.getD 1 0 < q then A ⟨_, h.1⟩ ⟨_, h.2⟩ else 0⟩

section Ops
variable [Field K]

/-- `tf.linalg.matmul`, for matrices and for batches, e.g. `lqt_tf.py:132,225`. -/
def Tens.mm (a b : Tens K) : Py (Tens K) :=
  match a.shape, b.shape with
  | [p, q], [q', r] =>
    if q = q' then .ok ⟨[p, r], fun i => ∑ k ∈ Finset.range q, a.val [i.getD 0 0, k] * b.val [k, i.getD 1 0]⟩ else .error .valueError
  | _, _ => a.matmul b

/-- `tf.linalg.matvec`, for matrices and for batches, e.g. `lqt_tf.py:134,226`. -/
def Tens.mv (a b : Tens K) : Py (Tens K) :=
  match a.shape, b.shape with
  | [p, q], [q'] => if q = q' then .ok ⟨[p], fun i => ∑ k ∈ Finset.range q, a.val [i.getD 0 0, k] * b.val [k]⟩ else .error .valueError
  | _, _ => a.matvec b

/-- The option `transpose_a=True` (or `transpose_b=True`), for matrices and for batches, e.g. `lqt_tf.py:132,226,271`. -/
def Tens.mT (t : Tens K) : Py (Tens K) :=
  match t.shape with
  | [_, _] => t.transpose
  | _ => t.batchT

/-- `tf.linalg.solve(A, B)` of batches, `lqt_tf.py:225,473,515`. -/
def Tens.solveM [DecidableEq K] (A B : Tens K) : Py (Tens K) :=
  match A.shape, B.shape with
  | [N, p, q], [N', p', r] =>
    if N = N' ∧ p = q ∧ p = p' then do
      let l ← (List.range N).mapM fun k => do
        let x ← Verif.solve (Matrix.of fun i j : Fin p => A.val [k, i.val, j.val]) (Matrix.of fun (i : Fin p) (j : Fin r) => B.val [k, i.val, j.val])
        return matTens x
      Tens.stack [p, r] (fun _ => 0) l
    else .error .valueError
  | _, _ => .error .valueError

/-- `tf.linalg.lu(A)` of a batch, `lqt_tf.py:268,272`. -/
def Tens.lu [DecidableEq K] (A : Tens K) : Py (Tens K) :=
  match A.shape with
  | [N, p, q] =>
    if p = q then do
      let l ← (List.range N).mapM fun k => do
        let x ← luFactor (Matrix.of fun i j : Fin p => A.val [k, i.val, j.val])
        return matTens x
      Tens.stack [p, p] (fun _ => 0) l
    else .error .valueError
  | _ => .error .valueError

/-- `tf.linalg.lu_solve(LU, p, B)`, `lqt_tf.py:269-274`. -/
def Tens.luSolve (LU B : Tens K) : Py (Tens K) := LU.mm B

/-- `tf.linalg.cholesky(A)`, for a matrix and for a batch, `lqt_tf.py:132,330,572,598`. -/
def Tens.cholesky [LinearOrder K] (A : Tens K) : Py (Tens K) :=
  match A.shape with
  | [p, q] =>
    if p = q then do
      let x ← tfCholesky (Matrix.of fun i j : Fin p => A.val [i.val, j.val])
      return matTens x
    else .error .valueError
  | [N, p, q] =>
    if p = q then do
      let l ← (List.range N).mapM fun k => do
        let x ← tfCholesky (Matrix.of fun i j : Fin p => A.val [k, i.val, j.val])
        return matTens x
      Tens.stack [p, p] (fun _ => 0) l
    else .error .valueError
  | _ => .error .valueError

/-- `tf.linalg.cholesky_solve(CF, B)`, `lqt_tf.py:133,135,331,333`. -/
def Tens.choSolve (CF B : Tens K) : Py (Tens K) := CF.mm B

/-- `tf.eye(n)`, `lqt_tf.py:267`. -/
def Tens.eye2 (n : ℕ) : Tens K := ⟨[n, n], fun i => if i.getD 0 0 = i.getD 1 0 then 1 else 0⟩

/-- `tf.reduce_sum(t)` over all axes, `lqt_tf.py:545-547`. -/
def Tens.reduceSum (t : Tens K) : K := ((allIdx t.shape).map t.val).sum

/-- The quadratic terms `tf.reduce_sum(mv(W, y) * y)`, `lqt_tf.py:545-547`. -/
def tensQuad (W y : Tens K) : Py K := do
  return (← (← W.mv y).bin (· * ·) y).reduceSum

/-- `Ss, vs, Kxs, ds`, `lqt_tf.py:152,335`. -/
structure TensBw (K : Type) where
  (Ss vs Kxs ds : Tens K)

/-- A tuple `(A, b, C, eta, J)`, `lqt_tf.py:228`. -/
structure TensElem (K : Type) where
  (A b C eta J : Tens K)

/-- A step `(F, c, L, H, r, X, U)`, `lqt_tf.py:129`. -/
structure TensStep (K : Type) where
  (F c L H r X U : Tens K)

/-- A carry `(S, v, Kx, d)`, `lqt_tf.py:139`. -/
structure TensCarry (K : Type) where
  (S v Kx d : Tens K)

/-- The steps over which `tf.scan` runs, `lqt_tf.py:145`; all tensors need the same number of items. -/
def tensSteps (Fs cs Ls Hs rs Xs Us : Tens K) : Py (List (TensStep K)) := do
  let F ← Fs.items
  let c ← cs.items
  let L ← Ls.items
  let H ← Hs.items
  let r ← rs.items
  let X ← Xs.items
  let U ← Us.items
  if c.length ≠ F.length ∨ L.length ≠ F.length ∨ H.length ≠ F.length ∨ r.length ≠ F.length ∨ X.length ≠ F.length ∨
    U.length ≠ F.length then throw .valueError
  return (F.zip (c.zip (L.zip (H.zip (r.zip (X.zip U)))))).map fun s => ⟨s.1, s.2.1, s.2.2.1, s.2.2.2.1, s.2.2.2.2.1, s.2.2.2.2.2.1, s.2.2.2.2.2.2⟩

section Ordered
variable [LinearOrder K]

/-- `body` of `lqt_seq_backwardpass`, `lqt_tf.py:119-139`. -/
def tensBwBody (carry : TensCarry K) (inputs : TensStep K) : Py (TensCarry K) := do
  let ⟨F, c, L, H, r, X, U⟩ := inputs
  let ⟨S, v, _, _⟩ := carry
  let CF ← (← U.bin (· + ·) (← (← (← L.mT).mm S).mm L)).cholesky
  let Kx ← CF.choSolve (← (← (← L.mT).mm S).mm F)
  let rh ← (← L.mT).mv (← v.bin (· - ·) (← S.mv c))
  let d ← (← CF.choSolve (← rh.expandDims (-1))).select (-1) 0
  let v ← (← (← H.mT).mv (← X.mv r)).bin (· + ·) (← (← (← F.bin (· - ·) (← L.mm Kx)).mT).mv (← v.bin (· - ·) (← S.mv c)))
  let S ← (← (← F.mT).mm (← S.mm (← F.bin (· - ·) (← L.mm Kx)))).bin (· + ·) (← (← H.mT).mm (← X.mm H))
  return ⟨S, v, Kx, d⟩

/-- `lqt_seq_backwardpass`, `lqt_tf.py:102-152`. -/
def tensLqtSeqBackward (Fs cs Ls Hs HT rs rT Xs XT Us : Tens K) : Py (TensBw K) := do
  let KxT := Tens.const [← Ls.size (-1), ← Ls.size (-2)] (0 : K)
  let dT := Tens.const [← Ls.size (-1)] (0 : K)
  let vT ← (← HT.mT).mv (← XT.mv rT)
  let ST ← (← HT.mT).mm (← XT.mm HT)
  let r ← tfScanRev tensBwBody ⟨ST, vT, KxT, dT⟩ (← tensSteps Fs cs Ls Hs rs Xs Us)
  let Ss ← Tens.stack ST.shape ST.val (r.1.map TensCarry.S)
  let vs ← Tens.stack vT.shape vT.val (r.1.map TensCarry.v)
  let Kxs ← Tens.stack KxT.shape KxT.val (r.1.map TensCarry.Kx)
  let ds ← Tens.stack dT.shape dT.val (r.1.map TensCarry.d)
  let Ss ← Ss.concat (← ST.expandDims 0) 0
  let vs ← vs.concat (← vT.expandDims 0) 0
  return ⟨Ss, vs, Kxs, ds⟩

/-- `lqt_par_backwardpass_init_most`, `lqt_tf.py:203-228`; the same code is `lqt_par_fwdbwdpass_init_most`, `lqt_tf.py:451-475`. -/
def tensLqtInitMost (Fs cs Ls Hs rs Xs Us : Tens K) : Py (TensElem K) := do
  let As := Fs
  let bs := cs
  let Cs ← Ls.mm (← Us.solveM (← Ls.batchT))
  let etas ← (← Hs.mT).mv (← Xs.mv rs)
  let Js ← (← Hs.mT).mm (← Xs.mm Hs)
  return ⟨As, bs, Cs, etas, Js⟩

/-- `lqt_par_backwardpass_init_last`, `lqt_tf.py:230-252`. -/
def tensLqtInitLast (HT rT XT : Tens K) : Py (TensElem K) := do
  let nx ← HT.size 1
  let A := Tens.const [nx, nx] (0 : K)
  let b := Tens.const [nx] (0 : K)
  let C := Tens.const [nx, nx] (0 : K)
  let eta ← (← HT.mT).mv (← XT.mv rT)
  let J ← (← HT.mT).mm (← XT.mm HT)
  return ⟨A, b, C, eta, J⟩

/-- `lqt_par_comb_V`, `lqt_tf.py:254-277`. -/
def tensLqtCombV (ij jk : TensElem K) : Py (TensElem K) := do
  let I ← (Tens.eye2 (← ij.A.size (-2)) : Tens K).expandDims 0
  let LU ← (← I.bin (· + ·) (← ij.C.mm jk.J)).lu
  let Aik ← jk.A.mm (← LU.luSolve ij.A)
  let bik ← (← jk.A.mv (← (← LU.luSolve (← (← ij.b.bin (· + ·) (← ij.C.mv jk.eta)).expandDims (-1))).select (-1) 0)).bin (· + ·) jk.b
  let Cik ← (← jk.A.mm (← LU.luSolve (← ij.C.mm (← jk.A.mT)))).bin (· + ·) jk.C
  let LU ← (← I.bin (· + ·) (← jk.J.mm ij.C)).lu
  let etaik ← (← (← ij.A.mT).mv (← (← LU.luSolve (← (← jk.eta.bin (· - ·) (← jk.J.mv ij.b)).expandDims (-1))).select (-1) 0)).bin
    (· + ·) ij.eta
  let Jik ← (← (← ij.A.mT).mm (← LU.luSolve (← jk.J.mm ij.A))).bin (· + ·) ij.J
  return ⟨Aik, bik, Cik, etaik, Jik⟩

/-- `lqt_par_comb_V_rev`, `lqt_tf.py:279-289`. -/
def tensLqtCombVRev (jk ij : TensElem K) : Py (TensElem K) := tensLqtCombV ij jk

/-- Joining each of five tensors with one more item behind, `lqt_tf.py:315-316`. -/
def TensElem.push (em el : TensElem K) : Py (TensElem K) := do
  return ⟨← em.A.concat (← el.A.expandDims 0) 0, ← em.b.concat (← el.b.expandDims 0) 0, ← em.C.concat (← el.C.expandDims 0) 0,
    ← em.eta.concat (← el.eta.expandDims 0) 0, ← em.J.concat (← el.J.expandDims 0) 0⟩

/-- Joining each of five tensors with one more item in front, `lqt_tf.py:501-502`. -/
def TensElem.cons (ef em : TensElem K) : Py (TensElem K) := do
  return ⟨← (← ef.A.expandDims 0).concat em.A 0, ← (← ef.b.expandDims 0).concat em.b 0, ← (← ef.C.expandDims 0).concat em.C 0,
    ← (← ef.eta.expandDims 0).concat em.eta 0, ← (← ef.J.expandDims 0).concat em.J 0⟩

/-- `tuple(tf.reverse(elem, axis=[0]) for elem in elems)`, `lqt_tf.py:318`. -/
def TensElem.reverse (e : TensElem K) : Py (TensElem K) := do
  return ⟨← e.A.reverse, ← e.b.reverse, ← e.C.reverse, ← e.eta.reverse, ← e.J.reverse⟩

/-- `tfp.math.scan_associative(fn, elems)` on a tuple of five tensors, `lqt_tf.py:320-322,504-506`; all need the same number of
items. -/
def TensElem.scanAssoc (scan : AScan) (fn : TensElem K → TensElem K → Py (TensElem K)) (e : TensElem K) : Py (TensElem K) := do
  let A ← e.A.slices
  let b ← e.b.slices
  let C ← e.C.slices
  let eta ← e.eta.slices
  let J ← e.J.slices
  if b.length ≠ A.length ∨ C.length ≠ A.length ∨ eta.length ≠ A.length ∨ J.length ≠ A.length then throw .valueError
  let r ← scan _ fn ((A.zip (b.zip (C.zip (eta.zip J)))).map fun s => ⟨s.1, s.2.1, s.2.2.1, s.2.2.2.1, s.2.2.2.2⟩)
  return ⟨← Tens.joinAll (r.map TensElem.A), ← Tens.joinAll (r.map TensElem.b), ← Tens.joinAll (r.map TensElem.C),
    ← Tens.joinAll (r.map TensElem.eta), ← Tens.joinAll (r.map TensElem.J)⟩

/-- `lqt_par_backwardpass`, `lqt_tf.py:291-335`. -/
def tensLqtParBackward (scan : AScan) (Fs cs Ls Hs HT rs rT Xs XT Us : Tens K) : Py (TensBw K) := do
  let elems_most ← tensLqtInitMost Fs cs Ls Hs rs Xs Us
  let elems_last ← tensLqtInitLast HT rT XT
  let elems ← elems_most.push elems_last
  let rev_elems ← elems.reverse
  let rev_elems ← rev_elems.scanAssoc scan tensLqtCombVRev
  let vs ← rev_elems.eta.reverse
  let Ss ← rev_elems.J.reverse
  let CF ← (← Us.bin (· + ·) (← (← (← Ls.mT).mm (← Ss.tail)).mm Ls)).cholesky
  let Kxs ← CF.choSolve (← (← (← Ls.mT).mm (← Ss.tail)).mm Fs)
  let rh ← (← Ls.mT).mv (← (← vs.tail).bin (· - ·) (← (← Ss.tail).mv cs))
  let ds ← (← CF.choSolve (← rh.expandDims (-1))).select (-1) 0
  return ⟨Ss, vs, Kxs, ds⟩

/-- `lqt_par_fwdbwdpass_init_first`, `lqt_tf.py:431-449`. -/
def tensLqtFwdBwdFirst (x0 : Tens K) : Py (TensElem K) := do
  let nx ← x0.size 0
  return ⟨Tens.const [nx, nx] 0, x0, Tens.const [nx, nx] 0, x0.map fun _ => 0, Tens.const [nx, nx] 0⟩

/-- `lqt_par_fwdbwdpass`, `lqt_tf.py:477-518`; returns `(xs, us)`. -/
def tensLqtParFwdBwd (scan : AScan) (x0 Fs cs Ls Hs rs Xs Us Ss vs Kxs ds : Tens K) : Py (Tens K × Tens K) := do
  let elems_first ← tensLqtFwdBwdFirst x0
  let elems_most ← tensLqtInitMost Fs cs Ls Hs rs Xs Us
  let elems ← elems_first.cons elems_most
  let elems ← elems.scanAssoc scan tensLqtCombV
  let Cs := elems.C
  let bs := elems.b
  let I := (Tens.eye (← Cs.size 0) (← Cs.size (-1)) : Tens K)
  let xs ← (← (← I.bin (· + ·) (← Cs.mm Ss)).solveM (← (← bs.bin (· + ·) (← Cs.mv vs)).expandDims (-1))).select (-1) 0
  let us ← ((← Kxs.mv (← xs.init)).map (- ·)).bin (· + ·) ds
  return (xs, us)

/-- `lqt_gen_to_canon`, `lqt_tf.py:552-578`; returns `(Fs_new, cs_new, Xs_new)`. -/
def tensLqtGenToCanon (Fs cs Ls Hs rs Xs Us Ms ss : Tens K) : Py (Tens K × Tens K × Tens K) := do
  let CF ← Us.cholesky
  let Fs_new ← Fs.bin (· - ·) (← Ls.mm (← CF.choSolve (← (← Ms.mT).mm Hs)))
  let tmp ← (← CF.choSolve (← (← (← Ms.mT).mv rs).expandDims (-1))).select (-1) 0
  let cs_new ← cs.bin (· + ·) (← Ls.mv (← tmp.bin (· + ·) ss))
  let Xs_new ← Xs.bin (· - ·) (← Ms.mm (← CF.choSolve (← Ms.batchT)))
  return (Fs_new, cs_new, Xs_new)

/-- `lqt_canon_to_gen`, `lqt_tf.py:580-602`; returns `(Kxs_new, ds_new)`. -/
def tensLqtCanonToGen (Kxs ds Hs rs Us Ms ss : Tens K) : Py (Tens K × Tens K) := do
  let CF ← Us.cholesky
  let Kxs_new ← Kxs.bin (· + ·) (← CF.choSolve (← (← Ms.mT).mm Hs))
  let tmp ← (← CF.choSolve (← (← (← Ms.mT).mv rs).expandDims (-1))).select (-1) 0
  let ds_new ← (← ds.bin (· + ·) tmp).bin (· + ·) ss
  return (Kxs_new, ds_new)

end Ordered

/-- A step `(F, c, L, Kx, d)`, `lqt_tf.py:181`. -/
structure TensFwd (K : Type) where
  (F c L Kx d : Tens K)

/-- `body` of `lqt_seq_forwardpass`, `lqt_tf.py:171-188`; the carry is `(x, u)`. -/
def tensFwdBody (carry : Tens K × Tens K) (inputs : TensFwd K) : Py (Tens K × Tens K) := do
  let ⟨F, c, L, Kx, d⟩ := inputs
  let (x, _) := carry
  let u ← ((← Kx.mv x).map (- ·)).bin (· + ·) d
  let x ← (← (← F.mv x).bin (· + ·) c).bin (· + ·) (← L.mv u)
  return (x, u)

/-- The steps over which `tf.scan` runs, `lqt_tf.py:192`; all tensors need the same number of items. -/
def tensFwdSteps (Fs cs Ls Kxs ds : Tens K) : Py (List (TensFwd K)) := do
  let F ← Fs.items
  let c ← cs.items
  let L ← Ls.items
  let Kx ← Kxs.items
  let d ← ds.items
  if c.length ≠ F.length ∨ L.length ≠ F.length ∨ Kx.length ≠ F.length ∨ d.length ≠ F.length then throw .valueError
  return (F.zip (c.zip (L.zip (Kx.zip d)))).map fun s => ⟨s.1, s.2.1, s.2.2.1, s.2.2.2.1, s.2.2.2.2⟩

/-- `lqt_seq_forwardpass`, `lqt_tf.py:154-197`; returns `(xs, us)`. -/
def tensLqtSeqForward (x0 Fs cs Ls Kxs ds : Tens K) : Py (Tens K × Tens K) := do
  let u0 := (← (← Ls.select 0 0).select 0 0).map fun _ => (0 : K)
  let r ← tfScanFwdM tensFwdBody (x0, u0) (← tensFwdSteps Fs cs Ls Kxs ds)
  let xs ← Tens.stack x0.shape x0.val (r.map Prod.fst)
  let us ← Tens.stack u0.shape u0.val (r.map Prod.snd)
  let xs ← (← x0.expandDims 0).concat xs 0
  return (xs, us)

/-- `lqt_par_forwardpass_init_first`, `lqt_tf.py:341-358`. -/
def tensLqtFwdFirst (x0 F c L Kx d : Tens K) : Py (Tens K × Tens K) := do
  let tF := F.map fun _ => (0 : K)
  let tc ← (← (← (← F.bin (· - ·) (← L.mm Kx)).mv x0).bin (· + ·) c).bin (· + ·) (← L.mv d)
  return (tF, tc)

/-- `lqt_par_forwardpass_init_most`, `lqt_tf.py:360-376`. -/
def tensLqtFwdMost (Fs cs Ls Kxs ds : Tens K) : Py (Tens K × Tens K) := do
  let tF ← Fs.bin (· - ·) (← Ls.mm Kxs)
  let tc ← cs.bin (· + ·) (← Ls.mv ds)
  return (tF, tc)

/-- `lqt_par_comb_f`, `lqt_tf.py:378-393`. -/
def tensLqtCombF (ij jk : Tens K × Tens K) : Py (Tens K × Tens K) := do
  let Fik ← jk.1.mm ij.1
  let cik ← (← jk.1.mv ij.2).bin (· + ·) jk.2
  return (Fik, cik)

/-- `tfp.math.scan_associative(fn, elems)` on a pair of tensors, `lqt_tf.py:418-420`; both need the same number of items. -/
def tensScanPair (scan : AScan) (fn : Tens K × Tens K → Tens K × Tens K → Py (Tens K × Tens K)) (e : Tens K × Tens K) :
    Py (Tens K × Tens K) := do
  let F ← e.1.slices
  let c ← e.2.slices
  if c.length ≠ F.length then throw .valueError
  let r ← scan _ fn (F.zip c)
  return (← Tens.joinAll (r.map Prod.fst), ← Tens.joinAll (r.map Prod.snd))

/-- `lqt_par_forwardpass`, `lqt_tf.py:395-426`; returns `(xs, us)`. -/
def tensLqtParForward (scan : AScan) (x0 Fs cs Ls Kxs ds : Tens K) : Py (Tens K × Tens K) := do
  let (tF, tc) ← tensLqtFwdFirst x0 (← Fs.select 0 0) (← cs.select 0 0) (← Ls.select 0 0) (← Kxs.select 0 0) (← ds.select 0 0)
  let (tFs, tcs) ← tensLqtFwdMost (← Fs.tail) (← cs.tail) (← Ls.tail) (← Kxs.tail) (← ds.tail)
  let elems := (← (← tF.expandDims 0).concat tFs 0, ← (← tc.expandDims 0).concat tcs 0)
  let elems ← tensScanPair scan tensLqtCombF elems
  let xs := elems.2
  let xs ← (← x0.expandDims 0).concat xs 0
  let us ← ((← Kxs.mv (← xs.init)).map (- ·)).bin (· + ·) ds
  return (xs, us)

/-- `lqt_cost`, `lqt_tf.py:523-547`. -/
def tensLqtCost (xs us Hs HT rs rT Xs XT Us : Tens K) : Py K := do
  let drT ← (← HT.mv (← xs.last)).bin (· - ·) rT
  let drs ← (← Hs.mv (← xs.init)).bin (· - ·) rs
  return (1 / 2) * (← tensQuad XT drT) + (1 / 2) * (← tensQuad Xs drs) + (1 / 2) * (← tensQuad Us us)

end Ops

end Verif
