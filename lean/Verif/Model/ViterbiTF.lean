import Verif.Model.Viterbi
import Verif.Model.TFScan

/-!
Model of the direct Viterbi routines of `/repo/parallel_control/viterbi_tf.py:233-545`.

Simplifications as in `Verif.Model.Viterbi`; tensors with a leading time axis are lists; `am` is `tf.argmin`
(any minimiser) and `scan` is `tfp.math.scan_associative`; the observation list is non-empty.
-/

namespace Verif

variable {n q : ℕ} {P K : Type} [LinearOrder K] [AddCommMonoid K] [NeZero n]

/-- `viterbi_seq_forwardpass`, `viterbi_tf.py:233-270`; returns `(us, Vs)`. -/
def HMM.tfSeqForward (am : (Fin n → K) → Fin n) (nl : P → K) (H : HMM n q P) (ys : List (Fin q)) :
    List (Fin n → Fin n) × List (Fin n → K) :=
  let r := ys.foldl (fun (st : (Fin n → K) × List (Fin n → Fin n) × List (Fin n → K)) y =>
    let psi := fun j x => nl (H.Po x y) + nl (H.Pi j x)
    let temp := fun j x => psi j x + st.1 j
    let u := fun x => am fun j => temp j x
    let V := fun x => min1 fun j => temp j x
    (V, st.2.1 ++ [u], st.2.2 ++ [V])) ((fun x => nl (H.prior x)), [], [])
  (r.2.1, (fun x => nl (H.prior x)) :: r.2.2)

/-- `viterbi_seq_backwardpass`, `viterbi_tf.py:273-294`: a reverse `tf.scan` followed by appending the last state. -/
def tfSeqBackward (am : (Fin n → K) → Fin n) (us : List (Fin n → Fin n)) (VT : Fin n → K) : List (Fin n) :=
  let x := am VT
  (us.foldr (fun u (st : Fin n × List (Fin n)) => (u st.1, u st.1 :: st.2)) (x, [])).2 ++ [x]

/-- `viterbi_seq_fwbw`, `viterbi_tf.py:297-312`; returns `(xs, Vs)`. -/
def HMM.tfSeqFwBw (am : (Fin n → K) → Fin n) (nl : P → K) (H : HMM n q P) (ys : List (Fin q)) :
    Py (List (Fin n) × List (Fin n → K)) :=
  let r := H.tfSeqForward am nl ys
  match r.2.getLast? with
  | none => .error .indexError
  | some VT => .ok (tfSeqBackward am r.1 VT, r.2)

/-- The per-step elements `-log(Pi) + gather(-log(Po^T), ys)`, `viterbi_tf.py:328` (also 489). -/
def HMM.tfElem (nl : P → K) (H : HMM n q P) (y : Fin q) : Fin n → Fin n → K :=
  fun j x => nl (H.Pi j x) + nl (H.Po x y)

/-- `viterbi_par_forwardpass_init`, `viterbi_tf.py:315-329`. -/
def HMM.tfParForwardInit (nl : P → K) (H : HMM n q P) (ys : List (Fin q)) : List (Fin n → Fin n → K) :=
  (fun _ x => nl (H.prior x)) :: ys.map (H.tfElem nl)

/-- `viterbi_par_forwardpass`, `viterbi_tf.py:359-383`, with `viterbi_par_comb_V` (332-343). -/
def HMM.tfParForward (scan : ((Fin n → Fin n → K) → (Fin n → Fin n → K) → Py (Fin n → Fin n → K)) →
      List (Fin n → Fin n → K) → Py (List (Fin n → Fin n → K)))
    (am : (Fin n → K) → Fin n) (nl : P → K) (H : HMM n q P) (ys : List (Fin q)) :
    Py (List (Fin n → Fin n) × List (Fin n → K)) := do
  let elems1 := H.tfParForwardInit nl ys
  let elems2 ← scan (fun x y => .ok (combineV x y)) elems1
  let Ls := elems1.tail
  let Vs := elems2.map (fun e => e 0)
  let Vus := Ls.zipWith (fun L V => fun j x => L j x + V j) Vs.dropLast
  let us := Vus.map (fun Vu x => am fun j => Vu j x)
  return (us, Vs)

/-- `viterbi_par_backwardpass` with its init, `viterbi_tf.py:386-436`, and `viterbi_par_comb_f` (400-411). -/
def tfParBackward (scan : ((Fin n → Fin n) → (Fin n → Fin n) → Py (Fin n → Fin n)) →
      List (Fin n → Fin n) → Py (List (Fin n → Fin n)))
    (am : (Fin n → K) → Fin n) (us : List (Fin n → Fin n)) (VT : Fin n → K) : Py (List (Fin n)) := do
  let xT := am VT
  let elems := us ++ [fun _ => xT]
  let rev_elems ← scan (fun fij fjk => .ok (combineF fij fjk)) elems.reverse
  return rev_elems.reverse.map (fun e => e 0)

/-- `viterbi_par_fwbw`, `viterbi_tf.py:439-454`. -/
def HMM.tfParFwBw (scanV : ((Fin n → Fin n → K) → (Fin n → Fin n → K) → Py (Fin n → Fin n → K)) →
      List (Fin n → Fin n → K) → Py (List (Fin n → Fin n → K)))
    (scanF : ((Fin n → Fin n) → (Fin n → Fin n) → Py (Fin n → Fin n)) →
      List (Fin n → Fin n) → Py (List (Fin n → Fin n)))
    (am : (Fin n → K) → Fin n) (nl : P → K) (H : HMM n q P) (ys : List (Fin q)) :
    Py (List (Fin n) × List (Fin n → K)) := do
  let r ← H.tfParForward scanV am nl ys
  match r.2.getLast? with
  | none => throw .indexError
  | some VT =>
    let xs ← tfParBackward scanF am r.1 VT
    return (xs, r.2)

/-- `viterbi_seqpar_fwbw`, `viterbi_tf.py:458-473`. -/
def HMM.tfSeqParFwBw (scanF : ((Fin n → Fin n) → (Fin n → Fin n) → Py (Fin n → Fin n)) →
      List (Fin n → Fin n) → Py (List (Fin n → Fin n)))
    (am : (Fin n → K) → Fin n) (nl : P → K) (H : HMM n q P) (ys : List (Fin q)) :
    Py (List (Fin n) × List (Fin n → K)) := do
  let r := H.tfSeqForward am nl ys
  match r.2.getLast? with
  | none => throw .indexError
  | some VT =>
    let xs ← tfParBackward scanF am r.1 VT
    return (xs, r.2)

/-- `viterbi_par_bwfwpass` with its init, `viterbi_tf.py:476-522`; `viterbi_par_comb_V_rev` (346-356) swaps the
operands of `viterbi_par_comb_V`. -/
def HMM.tfParBwFw (scan : ((Fin n → Fin n → K) → (Fin n → Fin n → K) → Py (Fin n → Fin n → K)) →
      List (Fin n → Fin n → K) → Py (List (Fin n → Fin n → K)))
    (am : (Fin n → K) → Fin n) (nl : P → K) (H : HMM n q P) (ys : List (Fin q)) (Vs : List (Fin n → K)) :
    Py (List (Fin n) × List (Fin n → K)) := do
  let elems := ys.map (H.tfElem nl) ++ [fun _ _ => 0]
  let rev_elems ← scan (fun Vjk Vij => .ok (combineV Vij Vjk)) elems.reverse
  let elems := rev_elems.reverse
  let Vfs := elems.map (fun e x => e x 0)
  let xs := Vfs.zipWith (fun Vf V => am fun x => Vf x + V x) Vs
  return (xs, Vfs)

/-- `viterbi_par_fwbwfw`, `viterbi_tf.py:526-541`. -/
def HMM.tfParFwBwFw (scan : ((Fin n → Fin n → K) → (Fin n → Fin n → K) → Py (Fin n → Fin n → K)) →
      List (Fin n → Fin n → K) → Py (List (Fin n → Fin n → K)))
    (am : (Fin n → K) → Fin n) (nl : P → K) (H : HMM n q P) (ys : List (Fin q)) :
    Py (List (Fin n) × List (Fin n → K)) := do
  let r ← H.tfParForward scan am nl ys
  let s ← H.tfParBwFw scan am nl ys r.2
  return (s.1, r.2)

end Verif
