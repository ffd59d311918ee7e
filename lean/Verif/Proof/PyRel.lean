import Verif.Model.CLQTTF
import Verif.Proof.CLQTSeq

/-! Comparison of computations that can fail. -/

namespace Verif

variable {α β γ δ ι κ : Type}

/-- For `d = true`: whenever `a` returns a value, `b` returns a related one; for `d = false` the converse. -/
def PyRel (d : Bool) (R : α → β → Prop) (a : Py α) (b : Py β) : Prop :=
  bif d then ∀ x, a = .ok x → ∃ y, b = .ok y ∧ R x y else ∀ y, b = .ok y → ∃ x, a = .ok x ∧ R x y

theorem PyRel.ok {d : Bool} {R : α → β → Prop} {x : α} {y : β} (h : R x y) : PyRel d R (.ok x) (.ok y) := by
  cases d
  · intro z hz
    exact ⟨x, rfl, Except.ok.inj hz ▸ h⟩
  · intro z hz
    exact ⟨y, rfl, Except.ok.inj hz ▸ h⟩

theorem PyRel.pure {d : Bool} {R : α → β → Prop} {x : α} {y : β} (h : R x y) :
    PyRel d R (Pure.pure x : Py α) (Pure.pure y : Py β) := PyRel.ok h

theorem PyRel.error {d : Bool} {R : α → β → Prop} (e e' : PyErr) : PyRel d R (.error e) (.error e') := by
  cases d <;> (intro z hz; cases hz)

theorem PyRel.refl {d : Bool} (a : Py α) : PyRel d Eq a a := by
  cases d <;> exact fun x h => ⟨x, h, rfl⟩

theorem PyRel.of_eq {d : Bool} {a b : Py α} (h : a = b) : PyRel d Eq a b := h ▸ PyRel.refl a

theorem PyRel.mono {d : Bool} {R R' : α → β → Prop} {a : Py α} {b : Py β} (h : PyRel d R a b) (hR : ∀ x y, R x y → R' x y) :
    PyRel d R' a b := by
  cases d
  · intro y hy
    obtain ⟨x, h1, h2⟩ := h y hy
    exact ⟨x, h1, hR _ _ h2⟩
  · intro x hx
    obtain ⟨y, h1, h2⟩ := h x hx
    exact ⟨y, h1, hR _ _ h2⟩

theorem PyRel.bind {d : Bool} {R : α → β → Prop} {R' : γ → δ → Prop} {a : Py α} {b : Py β} {f : α → Py γ} {g : β → Py δ}
    (h : PyRel d R a b) (hf : ∀ x y, R x y → PyRel d R' (f x) (g y)) : PyRel d R' (a >>= f) (b >>= g) := by
  cases d
  · intro z hz
    obtain ⟨y, h1, h2⟩ := bind_ok.1 hz
    obtain ⟨x, h3, h4⟩ := h y h1
    obtain ⟨w, h5, h6⟩ := hf x y h4 z h2
    exact ⟨w, bind_ok.2 ⟨x, h3, h5⟩, h6⟩
  · intro z hz
    obtain ⟨x, h1, h2⟩ := bind_ok.1 hz
    obtain ⟨y, h3, h4⟩ := h x h1
    obtain ⟨w, h5, h6⟩ := hf x y h4 z h2
    exact ⟨w, bind_ok.2 ⟨y, h3, h5⟩, h6⟩

theorem PyRel.bindEq {d : Bool} {R' : γ → δ → Prop} {a b : Py α} {f : α → Py γ} {g : α → Py δ}
    (h : PyRel d Eq a b) (hf : ∀ x, PyRel d R' (f x) (g x)) : PyRel d R' (a >>= f) (b >>= g) :=
  h.bind fun x _ e => e ▸ hf x

theorem PyRel.foldlM {d : Bool} {R : α → β → Prop} {f : α → ι → Py α} {g : β → κ → Py β} {T : ι → κ → Prop}
    (h : ∀ x y i j, R x y → T i j → PyRel d R (f x i) (g y j)) :
    ∀ {l : List ι} {l' : List κ}, List.Forall₂ T l l' → ∀ {x y}, R x y → PyRel d R (l.foldlM f x) (l'.foldlM g y)
  | _, _, .nil, _, _, hxy => PyRel.ok hxy
  | _, _, .cons hij hl, _, _, hxy => by
    rw [List.foldlM_cons, List.foldlM_cons]
    exact (h _ _ _ _ hxy hij).bind fun _ _ h' => PyRel.foldlM h hl h'

theorem PyRel.mapM {d : Bool} {R : α → β → Prop} {f : ι → Py α} {g : κ → Py β} {T : ι → κ → Prop}
    (h : ∀ i j, T i j → PyRel d R (f i) (g j)) :
    ∀ {l : List ι} {l' : List κ}, List.Forall₂ T l l' → PyRel d (List.Forall₂ R) (l.mapM f) (l'.mapM g)
  | _, _, .nil => PyRel.ok .nil
  | _, _, .cons hij hl => by
    rw [List.mapM_cons, List.mapM_cons]
    exact (h _ _ hij).bind fun _ _ h1 => (PyRel.mapM h hl).bind fun _ _ h2 => PyRel.ok (.cons h1 h2)

theorem PyRel.both {a b : Py α} (h : ∀ d, PyRel d Eq a b) (r : α) : a = .ok r ↔ b = .ok r := by
  constructor
  · intro hr
    obtain ⟨y, h1, rfl⟩ := h true r hr
    exact h1
  · intro hr
    obtain ⟨y, h1, rfl⟩ := h false r hr
    exact h1

/-! ### Scans -/

theorem tfScanRev_foldlM (body : β → α → Py β) (init : β) : ∀ l : List α, tfScanRev body init l =
    l.reverse.foldlM (fun (acc : List β × β) a => do
      let b ← body acc.2 a
      return (b :: acc.1, b)) ([], init)
  | [] => rfl
  | a :: l => by
    rw [tfScanRev, tfScanRev_foldlM body init l, List.reverse_cons, List.foldlM_append]
    simp only [List.foldlM_cons, List.foldlM_nil, bind_pure]

theorem tfScanFwdM_acc (body : β → α → Py β) : ∀ (l : List α) (init : β) (acc : List β),
    l.foldlM (fun (acc : List β × β) a => do
      let b ← body acc.2 a
      return (acc.1 ++ [b], b)) (acc, init) = (do
    let r ← tfScanFwdM body init l
    return (acc ++ r, (r.getLast?).getD init))
  | [], init, acc => by simp [tfScanFwdM, Pure.pure, Except.pure, Bind.bind, Except.bind]
  | a :: l, init, acc => by
    rw [List.foldlM_cons, tfScanFwdM]
    cases body init a with
    | error e => rfl
    | ok b =>
      show List.foldlM _ (acc ++ [b], b) l = _
      rw [tfScanFwdM_acc body l b (acc ++ [b])]
      cases h : tfScanFwdM body b l with
      | error e => simp [Pure.pure, Except.pure, Bind.bind, Except.bind, h]
      | ok r => simp [Pure.pure, Except.pure, Bind.bind, Except.bind, List.getLast?_cons, h]

theorem tfScanFwdM_foldlM (body : β → α → Py β) (init : β) (l : List α) : tfScanFwdM body init l =
    Prod.fst <$> l.foldlM (fun (acc : List β × β) a => do
      let b ← body acc.2 a
      return (acc.1 ++ [b], b)) ([], init) := by
  rw [tfScanFwdM_acc]
  cases tfScanFwdM body init l with
  | error e => rfl
  | ok r => simp [Pure.pure, Except.pure, Bind.bind, Except.bind, Functor.map, Except.map]

end Verif
