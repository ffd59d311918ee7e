import Verif.Model.Examples
import Verif.Model.SpeedLinear

/-!
Model of `/repo/parallel_control/finite_speedtest.py` and of the conversion `fsc_np_to_tf`, `/repo/parallel_control/fsc_tf.py:17-32`.

Simplifications: those of the modelled passes and of the model of the game; the time measurement, the choice of the device and the
printing are omitted as in `Verif.Model.SpeedLinear`; the numbers of states and controls are parameters of the conversion, and arrays
of other shapes, lists of unequal lengths and transitions that are no states, for which TensorFlow raises in the conversion or in the
passes, are a `valueError`; transitions fit into `int32`; there is at least one lane.
-/

namespace Verif

/-- `tf.argmin` along an axis for all lengths, e.g. `fsc_tf.py:56`. -/
abbrev AArgmin (K : Type) := ∀ n : ℕ, [NeZero n] → (Fin n → K) → Fin n

section Convert
variable {K : Type}

/-- `tf.convert_to_tensor(.., dtype=tf.int32)` of a matrix of transitions, `fsc_tf.py:29`. -/
def tfIdx (n m : ℕ) (a : NArr2 ℕ) : Py (Fin n → Fin m → Fin n) :=
  if h : (a.rows = n ∧ a.cols = m) ∧ ∀ x u, a.data x u < n then
    .ok fun x u => ⟨a.data (x.cast h.1.1.symm) (u.cast h.1.2.symm), h.2 _ _⟩
  else .error .valueError

/-- `fsc_np_to_tf`, `fsc_tf.py:17-32`. -/
def RawFSC.npToTf (n m : ℕ) (o : RawFSC ℕ K) : Py (FSC n m K) := do
  let fs ← o.f.mapM (tfIdx n m)
  let Ls ← o.L.mapM (tfMat n m)
  let LT ← tfVec n o.LT
  if Ls.length ≠ fs.length then throw .valueError
  return ⟨List.zipWith (fun f (L : Matrix (Fin n) (Fin m) K) => ⟨f, fun x u => L x u⟩) fs Ls, LT⟩

end Convert

section Passes
variable {n m : ℕ} {K : Type} [LinearOrder K] [AddCommMonoid K] [NeZero n] [NeZero m]

/-- `fsc_seq_bw`, `finite_speedtest.py:22-26`; returns `(us, Vs)`. -/
def FSC.spSeqBw (am : AArgmin K) (M : FSC n m K) : Py (List (Fin n → Fin m) × List (Fin n → K)) :=
  M.tfSeqBackward (am m)

/-- `fsc_par_bw`, `finite_speedtest.py:48-51`; returns `(us, Vs)`. -/
def FSC.spParBw (scan : AScan) (am : AArgmin K) (inf : K) (M : FSC n m K) : Py (List (Fin n → Fin m) × List (Fin n → K)) :=
  M.tfParBackwardMp (scan _) (am m) inf M.stages.length

/-- `fsc_seq_bwfw`, `finite_speedtest.py:72-76`; returns what `fsc_seq_forwardpass` returns, that is `(min_xs, min_us)`. -/
def FSC.spSeqBwFw (am : AArgmin K) (M : FSC n m K) (x0 : Fin n) : Py (List (Fin n) × List (Fin m)) := do
  let (us, _Vs) ← M.tfSeqBackward (am m)
  M.tfSeqForward x0 us

/-- `fsc_par_bwfw_1`, `finite_speedtest.py:97-101`; returns `(min_us, min_xs)`. -/
def FSC.spParBwFw1 (scan : AScan) (am : AArgmin K) (inf : K) (M : FSC n m K) (x0 : Fin n) : Py (List (Fin m) × List (Fin n)) := do
  let (us, _Vs) ← M.tfParBackwardMp (scan _) (am m) inf M.stages.length
  M.tfParForwardMp (scan _) M.stages.length x0 us

/-- `fsc_par_bwfw_2`, `finite_speedtest.py:122-126`; returns `(min_us, min_xs)`. -/
def FSC.spParBwFw2 (scan : AScan) (am : AArgmin K) (inf : K) (M : FSC n m K) (x0 : Fin n) : Py (List (Fin m) × List (Fin n)) := do
  let (us, Vs) ← M.tfParBackwardMp (scan _) (am m) inf M.stages.length
  M.tfParFwdBwdMp (scan _) (am n) inf M.stages.length x0 us Vs

end Passes

/-- A tuple `(x0, fs, Ls, LT)` of the generator, `finite_speedtest.py:161`. -/
structure FSCItem (K : Type) where
  (n m : ℕ)
  hn : NeZero n
  hm : NeZero m
  x0 : Fin n
  M : FSC n m K

attribute [instance] FSCItem.hn FSCItem.hm

section Tests
variable {K : Type} [Field K] [LinearOrder K]

/-- The loop for a function of the items, e.g. `finite_speedtest.py:33-43`: `fs.shape[0]` and `LT.shape[0]` are reported. -/
def fscSpeed {β : FSCItem K → Type} (gen : List (Py (FSCItem K))) (run : ∀ it, Py (β it)) (n_iter : ℕ) : Py (List ℕ × List ℕ) :=
  speedLoop gen (fun it => do let _ ← run it; return ()) (fun it => it.M.stages.length) (fun it => it.n) n_iter

/-- `fsc_seq_bw_speedtest`, `finite_speedtest.py:28-44`. -/
def fscSeqBwSpeed (am : AArgmin K) (gen : List (Py (FSCItem K))) (n_iter : ℕ) : Py (List ℕ × List ℕ) :=
  fscSpeed gen (fun it => it.M.spSeqBw am) n_iter

/-- `fsc_par_bw_speedtest`, `finite_speedtest.py:53-69`; the constant `1e20` is `fsc_tf.py:120,301`. -/
def fscParBwSpeed (scan : AScan) (am : AArgmin K) (gen : List (Py (FSCItem K))) (n_iter : ℕ) : Py (List ℕ × List ℕ) :=
  fscSpeed gen (fun it => it.M.spParBw scan am (10 ^ 20)) n_iter

/-- `fsc_seq_bwfw_speedtest`, `finite_speedtest.py:78-94`. -/
def fscSeqBwFwSpeed (am : AArgmin K) (gen : List (Py (FSCItem K))) (n_iter : ℕ) : Py (List ℕ × List ℕ) :=
  fscSpeed gen (fun it => it.M.spSeqBwFw am it.x0) n_iter

/-- `fsc_par_bwfw_1_speedtest`, `finite_speedtest.py:103-119`. -/
def fscParBwFw1Speed (scan : AScan) (am : AArgmin K) (gen : List (Py (FSCItem K))) (n_iter : ℕ) : Py (List ℕ × List ℕ) :=
  fscSpeed gen (fun it => it.M.spParBwFw1 scan am (10 ^ 20) it.x0) n_iter

/-- `fsc_par_bwfw_2_speedtest`, `finite_speedtest.py:128-144`. -/
def fscParBwFw2Speed (scan : AScan) (am : AArgmin K) (gen : List (Py (FSCItem K))) (n_iter : ℕ) : Py (List ℕ × List ℕ) :=
  fscSpeed gen (fun it => it.M.spParBwFw2 scan am (10 ^ 20) it.x0) n_iter

/-- One iteration of `finite_generator`, `finite_speedtest.py:155-161`. -/
def laneItem (rnd : ℕ → ℕ → K) (nx T : ℕ) [NeZero nx] : Py (FSCItem K) := do
  let (track, x0) := laneGenData rnd T nx
  let fsc ← laneGetFSC track
  let M ← fsc.npToTf nx 3
  if h : x0 < nx then return ⟨nx, 3, inferInstance, inferInstance, ⟨x0, h⟩, M⟩ else throw .valueError

/-- `finite_generator`, `finite_speedtest.py:150-161`: every model has the same seed, but the random numbers of the walks come after
`nx * T` others, so that they depend on the length. -/
noncomputable def finiteGen (rnd : ℕ → ℕ → ℕ → K) (nx : ℕ) [NeZero nx] (start stop : ℝ) (num : ℕ) : List (Py (FSCItem K)) :=
  (logspaceInt start stop num).map fun T => laneItem (rnd T) nx T

end Tests

end Verif
