import Verif.Model.ViterbiTF
import Verif.Model.LQTTF

/-!
Model of `/repo/parallel_control/fsc_tf.py` and of the Viterbi routines through it,
`/repo/parallel_control/viterbi_tf.py:25-124`.

Simplifications as in `Verif.Model.FSC`; the batched tensors `fs`, `Ls` with a common first dimension are the list
of stages; `am` is `tf.argmin` (any minimiser, one function per length of the argument), `scanV` and `scanF` are
`tfp.math.scan_associative` on the two kinds of elements; `inf` is the constant `1e20`; tensors of unequal first
dimension are rejected with `valueError`.
-/

namespace Verif

variable {n m q : ℕ} {P K : Type}

/-- `body` of `fsc_seq_backwardpass`, `fsc_tf.py:51-59`; the carry is `(V, u)`. -/
def tfFscBody [LinearOrder K] [Add K] [NeZero m] (am : (Fin m → K) → Fin m) (st : (Fin n → K) × (Fin n → Fin m))
    (s : FStage n m K) : Py ((Fin n → K) × (Fin n → Fin m)) :=
  let Vu := fun x u => s.L x u + st.1 (s.f x u)
  let u := fun x => am (Vu x)
  let V := fun x => min1 (Vu x)
  .ok (V, u)

/-- `fsc_seq_backwardpass`, `fsc_tf.py:38-70`; returns `(us, Vs)`. -/
def FSC.tfSeqBackward [LinearOrder K] [Add K] [NeZero m] (am : (Fin m → K) → Fin m) (M : FSC n m K) :
    Py (List (Fin n → Fin m) × List (Fin n → K)) := do
  let r ← tfScanRev (tfFscBody am) (M.LT, fun _ => 0) M.stages
  return (r.1.map Prod.snd, r.1.map Prod.fst ++ [M.LT])

/-- `body` of `fsc_seq_forwardpass`, `fsc_tf.py:85-92`; the carry is `(min_x, min_u)`. -/
def tfFscFwdBody (st : Fin n × Fin m) (a : FStage n m K × (Fin n → Fin m)) : Fin n × Fin m :=
  let min_u := a.2 st.1
  let min_x := a.1.f st.1 min_u
  (min_x, min_u)

/-- `fsc_seq_forwardpass`, `fsc_tf.py:72-99`; returns `(min_xs, min_us)`. -/
def FSC.tfSeqForward [NeZero m] (M : FSC n m K) (x0 : Fin n) (us : List (Fin n → Fin m)) :
    Py (List (Fin n) × List (Fin m)) := do
  if us.length ≠ M.stages.length then throw .valueError
  let r := tfScanFwd tfFscFwdBody (x0, 0) (M.stages.zip us)
  return (x0 :: r.map Prod.fst, r.map Prod.snd)

/-- `fsc_par_backwardpass_init_most` for one step, `fsc_tf.py:106-133`: the tensor `Vu[x,u,xp]` is filled with `inf`,
the entries `Vu[x,u,f[x,u]]` are overwritten with `L[x,u]`, and the minimum over `u` is taken. -/
def tfStageElem [LinearOrder K] [NeZero m] (inf : K) (s : FStage n m K) : Fin n → Fin n → K :=
  let Vu : Fin n → Fin m → Fin n → K := fun x u => Function.update (fun _ => inf) (s.f x u) (s.L x u)
  fun x xp => min1 fun u => Vu x u xp

/-- `fsc_par_comb_V`, `fsc_tf.py:147-158`: `Vij[..., None] + Vjk[:, None]` minimised over the middle index. -/
def tfFscCombV [LinearOrder K] [Add K] [NeZero n] (Vij Vjk : Fin n → Fin n → K) : Fin n → Fin n → K :=
  let sum : Fin n → Fin n → Fin n → K := fun i j k => Vij i j + Vjk j k
  fun i k => min1 fun j => sum i j k

/-- `fsc_par_comb_f`, `fsc_tf.py:241-254`. -/
def tfFscCombF (fij fjk : Fin n → Fin n) : Fin n → Fin n := fun i => fjk (fij i)

section Passes
variable [LinearOrder K] [AddCommMonoid K] [NeZero n] [NeZero m]

/-- `fsc_par_backwardpass`, `fsc_tf.py:173-202`, with `init_last` (135-145) and `comb_V_rev` (160-170);
returns `(us, Vs)`. -/
def FSC.tfParBackward (scanV : ((Fin n → Fin n → K) → (Fin n → Fin n → K) → Py (Fin n → Fin n → K)) →
      List (Fin n → Fin n → K) → Py (List (Fin n → Fin n → K)))
    (am : (Fin m → K) → Fin m) (inf : K) (M : FSC n m K) : Py (List (Fin n → Fin m) × List (Fin n → K)) := do
  let elems := M.stages.map (tfStageElem inf) ++ [fun x _ => M.LT x]
  let rev_elems ← scanV (fun Vjk Vij => .ok (tfFscCombV Vij Vjk)) elems.reverse
  let Vs := rev_elems.reverse.map (fun e x => e x 0)
  let Vus := M.stages.zipWith (fun s V => fun x u => s.L x u + V (s.f x u)) Vs.tail
  let us := Vus.map (fun Vu x => am (Vu x))
  return (us, Vs)

/-- `fsc_par_forwardpass`, `fsc_tf.py:256-282`, with `init_first` (208-219) and `init_most` (221-239);
returns `(min_us, min_xs)`. -/
def FSC.tfParForward (scanF : ((Fin n → Fin n) → (Fin n → Fin n) → Py (Fin n → Fin n)) →
      List (Fin n → Fin n) → Py (List (Fin n → Fin n)))
    (M : FSC n m K) (x0 : Fin n) (us : List (Fin n → Fin m)) : Py (List (Fin m) × List (Fin n)) := do
  if us.length ≠ M.stages.length then throw .valueError
  let most := M.stages.zipWith (fun s p => fun x => s.f x (p x)) us
  let elems ← scanF (fun fij fjk => .ok (tfFscCombF fij fjk)) ((fun _ => x0) :: most)
  let min_xs := elems.map (fun e => e 0)
  let min_us := us.zipWith (fun p x => p x) min_xs.dropLast
  return (min_us, min_xs)

/-- `fsc_par_fwdbwdpass_init_first`, `fsc_tf.py:288-308`: all rows are `inf` with a zero at `x0`. -/
def tfFwdBwdFirst (inf : K) (x0 : Fin n) : Fin n → Fin n → K :=
  fun _ => Function.update (fun _ => inf) x0 0

/-- `fsc_par_fwdbwdpass`, `fsc_tf.py:323-352`; returns `(min_us, min_xs)`; `Ls[0, ...]` (line 339) fails when
`T = 0`. -/
def FSC.tfParFwdBwd (scanV : ((Fin n → Fin n → K) → (Fin n → Fin n → K) → Py (Fin n → Fin n → K)) →
      List (Fin n → Fin n → K) → Py (List (Fin n → Fin n → K)))
    (amX : (Fin n → K) → Fin n) (inf : K) (M : FSC n m K) (x0 : Fin n) (us : List (Fin n → Fin m))
    (Vs : List (Fin n → K)) : Py (List (Fin m) × List (Fin n)) := do
  if M.stages.isEmpty then throw .valueError
  if Vs.length ≠ M.stages.length + 1 ∨ us.length ≠ M.stages.length then throw .valueError
  let elems ← scanV (fun x y => .ok (tfFscCombV x y)) (tfFwdBwdFirst inf x0 :: M.stages.map (tfStageElem inf))
  let Vfs := elems.map (fun e => e 0)
  let min_xs := Vfs.zipWith (fun Vf V => amX fun x => Vf x + V x) Vs
  let min_us := us.zipWith (fun p x => p x) min_xs.dropLast
  return (min_us, min_xs)

end Passes

/-- `get_viterbi_from_fsc`, `viterbi_tf.py:47-61`. -/
def tfViterbiFromFsc (min_xs : List (Fin n)) (Vs : List (Fin n → K)) : List (Fin n) × List (Fin n → K) :=
  (min_xs.reverse, Vs.reverse)

section Vit
variable [LinearOrder K] [AddCommMonoid K] [NeZero n] [Mul P]

/-- `viterbi_fsc_seq_bwfw` on the problem of `make_viterbi_fsc`, `viterbi_tf.py:25-45,69-85`. -/
def HMM.tfFscSeq (am : (Fin n → K) → Fin n) (nl : P → K) (H : HMM n q P) (ys : List (Fin q)) :
    Py (List (Fin n) × List (Fin n → K)) := do
  let fsc ← H.getFSC nl ys
  let (us, Vs) ← fsc.tfSeqBackward am
  let x0 := am (← pyGet Vs 0)
  let (min_xs, _) ← fsc.tfSeqForward x0 us
  return tfViterbiFromFsc min_xs Vs

/-- `viterbi_fsc_par_bwfw` on the problem of `make_viterbi_fsc`, `viterbi_tf.py:25-45,87-103`. -/
def HMM.tfFscPar (scanV : ((Fin n → Fin n → K) → (Fin n → Fin n → K) → Py (Fin n → Fin n → K)) →
      List (Fin n → Fin n → K) → Py (List (Fin n → Fin n → K)))
    (scanF : ((Fin n → Fin n) → (Fin n → Fin n) → Py (Fin n → Fin n)) →
      List (Fin n → Fin n) → Py (List (Fin n → Fin n)))
    (am : (Fin n → K) → Fin n) (inf : K) (nl : P → K) (H : HMM n q P) (ys : List (Fin q)) :
    Py (List (Fin n) × List (Fin n → K)) := do
  let fsc ← H.getFSC nl ys
  let (us, Vs) ← fsc.tfParBackward scanV am inf
  let x0 := am (← pyGet Vs 0)
  let (_, min_xs) ← fsc.tfParForward scanF x0 us
  return tfViterbiFromFsc min_xs Vs

/-- `viterbi_fsc_par_bwfwbw` on the problem of `make_viterbi_fsc`, `viterbi_tf.py:25-45,105-124`. -/
def HMM.tfFscParBwFwBw (scanV : ((Fin n → Fin n → K) → (Fin n → Fin n → K) → Py (Fin n → Fin n → K)) →
      List (Fin n → Fin n → K) → Py (List (Fin n → Fin n → K)))
    (am : (Fin n → K) → Fin n) (inf : K) (nl : P → K) (H : HMM n q P) (ys : List (Fin q)) :
    Py (List (Fin n) × List (Fin n → K)) := do
  let fsc ← H.getFSC nl ys
  let (us, Vs) ← fsc.tfParBackward scanV am inf
  let x0 := am (← pyGet Vs 0)
  let (_, min_xs) ← fsc.tfParFwdBwd scanV am inf x0 us Vs
  return tfViterbiFromFsc min_xs Vs

end Vit

end Verif
