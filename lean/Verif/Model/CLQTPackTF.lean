import Verif.Model.CLQT
import Mathlib.Data.Fin.Tuple.Basic

/-!
Model of the packing functions of `/repo/parallel_control/clqt_tf.py:25-134`.

Simplifications: one element of the batch at a time; `tf.concat` along the last axis joins the rows.
-/

namespace Verif

variable {n : ℕ} {K : Type}

/-- `pack_abcej`, `clqt_tf.py:25-36`. -/
def packABCEJTF (e : Elem n K) : Matrix (Fin n) (Fin (3 * n + 2)) K := Matrix.of fun i j =>
  Fin.append (Fin.append (Fin.append (Fin.append (e.A i) (e.C i)) (e.J i)) (fun _ : Fin 1 => e.b i))
    (fun _ : Fin 1 => e.eta i) (Fin.cast (by omega) j)

/-- `unpack_abcej`, `clqt_tf.py:38-53`. -/
def unpackABCEJTF (x : Matrix (Fin n) (Fin (3 * n + 2)) K) : Elem n K where
  A := Matrix.of fun i j => x i ⟨j.1, by omega⟩
  C := Matrix.of fun i j => x i ⟨n + j.1, by omega⟩
  J := Matrix.of fun i j => x i ⟨2 * n + j.1, by omega⟩
  b := fun i => x i ⟨3 * n, by omega⟩
  eta := fun i => x i ⟨3 * n + 1, by omega⟩

/-- `pack_Psiphi`, `clqt_tf.py:55-65`. -/
def packPsiphiTF (Psi : Matrix (Fin n) (Fin n) K) (phi : Fin n → K) : Matrix (Fin n) (Fin (n + 1)) K :=
  Matrix.of fun i j => Fin.append (Psi i) (fun _ : Fin 1 => phi i) j

/-- `unpack_Psiphi`, `clqt_tf.py:67-80`. -/
def unpackPsiphiTF (x : Matrix (Fin n) (Fin (n + 1)) K) : Matrix (Fin n) (Fin n) K × (Fin n → K) :=
  (Matrix.of fun i j => x i ⟨j.1, by omega⟩, fun i => x i ⟨n, by omega⟩)

/-- `pack_abc`, `clqt_tf.py:82-92`. -/
def packABCTF (A : Matrix (Fin n) (Fin n) K) (b : Fin n → K) (C : Matrix (Fin n) (Fin n) K) :
    Matrix (Fin n) (Fin (2 * n + 1)) K := Matrix.of fun i j =>
  Fin.append (Fin.append (A i) (C i)) (fun _ : Fin 1 => b i) (Fin.cast (by omega) j)

/-- `unpack_abc`, `clqt_tf.py:94-108`. -/
def unpackABCTF (x : Matrix (Fin n) (Fin (2 * n + 1)) K) :
    Matrix (Fin n) (Fin n) K × (Fin n → K) × Matrix (Fin n) (Fin n) K :=
  (Matrix.of fun i j => x i ⟨j.1, by omega⟩, fun i => x i ⟨2 * n, by omega⟩,
    Matrix.of fun i j => x i ⟨n + j.1, by omega⟩)

/-- `pack_Sv`, `clqt_tf.py:110-120`. -/
def packSvTF (S : Matrix (Fin n) (Fin n) K) (v : Fin n → K) : Matrix (Fin n) (Fin (n + 1)) K :=
  Matrix.of fun i j => Fin.append (S i) (fun _ : Fin 1 => v i) j

/-- `unpack_Sv`, `clqt_tf.py:122-134`. -/
def unpackSvTF (x : Matrix (Fin n) (Fin (n + 1)) K) : Matrix (Fin n) (Fin n) K × (Fin n → K) :=
  (Matrix.of fun i j => x i ⟨j.1, by omega⟩, fun i => x i ⟨n, by omega⟩)

end Verif
