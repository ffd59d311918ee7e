import Verif.Proof.LQTCheck
import Verif.Props.LQT

/-!
Property C29: the constructor `LQT.checkAndExpand`, `/repo/parallel_control/lqt_np.py:444-603`.
-/

namespace Verif

variable {K : Type} [Zero K] [One K]

/-- C29: the constructor returns `o` exactly when the arguments are well shaped and `o` holds their expansions and the
documented defaults. -/
theorem C29_ok_iff (a : LQTArgs K) (o : RawLQT K) : a.checkAndExpand = .ok o ↔ LQTWellShaped a o := lqtCheck_iff a o

/-- C29: every exception is a `ValueError`, except that an empty list for `F`, `L` or `X` always gives `IndexError`. -/
theorem C29_errors (a : LQTArgs K) :
    (∀ e, a.checkAndExpand = .error e → e = .valueError ∨ e = .indexError) ∧
    (a.checkAndExpand = .error .indexError ↔ a.F = .list [] ∨ a.L = .list [] ∨ a.X = .list []) := by
  obtain ⟨h1, h2⟩ := lqtCheck_errors a
  by_cases h : a.F = .list [] ∨ a.L = .list [] ∨ a.X = .list []
  · have := h2 h
    exact ⟨fun e he => by rw [this] at he; cases he; exact .inr rfl, fun _ => h, fun _ => this⟩
  · have h' := h
    push Not at h'
    have := h1 h'.1 h'.2.1 h'.2.2
    exact ⟨fun e he => .inl (this e he), fun he => (nomatch this _ he), fun he => absurd he h⟩

/-- C29: if one of `F`, `L`, `X`, `U` is a list, `T` has no influence. -/
theorem C29_T_ignored (a : LQTArgs K) (T : Option ℤ) (h : ¬ a.AllOne) :
    a.checkAndExpand = ({ a with T := T } : LQTArgs K).checkAndExpand := by
  have : a.horizon = ({ a with T := T } : LQTArgs K).horizon := by
    unfold LQTArgs.horizon
    cases eF : a.F with
    | list l => rfl
    | one F =>
      cases eL : a.L with
      | list l => rfl
      | one L =>
        cases eX : a.X with
        | list l => rfl
        | one X =>
          cases eU : a.U with
          | list l => rfl
          | one U => exact absurd ⟨F, L, X, U, eF, eL, eX, eU⟩ h
  unfold LQTArgs.checkAndExpand
  rw [this]

/-- C29: every object returned is one of those described by the type `LQT` that all other theorems are about. -/
theorem C29_object (a : LQTArgs K) (o : RawLQT K) (h : a.checkAndExpand = .ok o) :
    ∃ (n m : ℕ) (P : LQT n m K), o = P.raw := wellShaped_object ((lqtCheck_iff a o).1 h)

/-- C29: every such object with at least one step is returned when its fields are passed as lists. -/
theorem C29_object_of {n m : ℕ} (P : LQT n m K) (h : P.stages ≠ []) : P.raw.args.checkAndExpand = .ok P.raw :=
  (lqtCheck_iff _ _).2 (raw_wellShaped P h)

/-! ### Examples -/

/-- Arguments with defaults, lists and arrays. -/
def exArgs : LQTArgs ℤ where
  F := .one ⟨2, 2, fun i j => i.val + j.val⟩
  L := .one ⟨2, 1, fun _ _ => 1⟩
  X := .list [⟨2, 2, fun _ _ => 3⟩, ⟨2, 2, fun _ _ => 4⟩]
  U := .one ⟨1, 1, fun _ _ => 2⟩
  r := some (.list [⟨2, fun _ => 5⟩, ⟨2, fun _ => 6⟩])
  T := some 7

example : ∃ o, exArgs.checkAndExpand = .ok o ∧ o.F.length = 2 ∧ o.M.length = 2 := ⟨_, rfl, rfl, rfl⟩
example : ∃ o, LQTWellShaped exArgs o ∧ o.H.map (fun A => (A.rows, A.cols)) = [(2, 2), (2, 2)] :=
  ⟨_, (C29_ok_iff ..).1 rfl, rfl⟩
example : ¬ exArgs.AllOne := by rintro ⟨F, L, X, U, -, -, h, -⟩; simp [exArgs] at h
example : ({ exArgs with X := .list [] } : LQTArgs ℤ).checkAndExpand = .error .indexError := rfl
example : ({ exArgs with X := .one ⟨2, 2, fun _ _ => 3⟩, T := none } : LQTArgs ℤ).checkAndExpand = .error .valueError := rfl
example : ({ exArgs with r := some (.list []) } : LQTArgs ℤ).checkAndExpand = .error .valueError := rfl
example : ({ exArgs with XT := some ⟨1, 1, fun _ _ => 1⟩ } : LQTArgs ℤ).checkAndExpand = .error .valueError := rfl
example : ∃ o, ({ exArgs with X := .one ⟨2, 2, fun _ _ => 3⟩, r := none, T := some (-4) } : LQTArgs ℤ).checkAndExpand
    = .ok o ∧ o.F = [] := ⟨_, rfl, rfl⟩
example : ∃ o, ({ exArgs with X := .one ⟨2, 2, fun _ _ => 3⟩, r := none, U := .list [] } : LQTArgs ℤ).checkAndExpand
    = .ok o ∧ o.F = [] := ⟨_, rfl, rfl⟩
example : exLQT.raw.args.checkAndExpand = .ok exLQT.raw := C29_object_of exLQT (by simp [exLQT])

end Verif
