import Verif.Proof.ShootingEval
import Verif.Proof.PyLemmas

/-! The batched solution of the shooting problems in TensorFlow row by row. -/

namespace Verif

open Matrix

theorem py_bind_ok {α β : Type} (a : Py α) (f : α → Py β) (b : β) : (a >>= f) = .ok b ↔ ∃ x, a = .ok x ∧ f x = .ok b := by
  cases a with
  | error e => constructor
               · intro h; cases h
               · rintro ⟨_, h, -⟩; cases h
  | ok a => constructor
            · intro h; exact ⟨a, rfl, h⟩
            · rintro ⟨_, h, h'⟩; cases h; exact h'

theorem mapM_cons_ok {α β : Type} (f : α → Py β) (a : α) (l : List α) (r : List β) :
    (a :: l).mapM f = .ok r ↔ ∃ b t, f a = .ok b ∧ l.mapM f = .ok t ∧ r = b :: t := by
  rw [List.mapM_cons]
  constructor
  · intro h
    obtain ⟨b, h1, h2⟩ := (py_bind_ok _ _ _).1 h
    obtain ⟨t, h3, h4⟩ := (py_bind_ok _ _ _).1 h2
    exact ⟨b, t, h1, h3, (Except.ok.inj h4).symm⟩
  · rintro ⟨b, t, h1, h2, rfl⟩
    rw [h1, h2]; rfl

theorem mapM_map_ok {α β : Type} (f : α → Py β) : ∀ (l : List α) (r : List β), l.mapM f = .ok r ↔ l.map f = r.map Except.ok
  | [], r => by
    constructor
    · intro h
      have : ([] : List β) = r := Except.ok.inj h
      subst this; rfl
    · intro h
      rw [List.map_nil, eq_comm, List.map_eq_nil_iff] at h
      subst h; rfl
  | a :: l, r => by
    rw [mapM_cons_ok]
    constructor
    · rintro ⟨b, t, h1, h2, rfl⟩
      rw [List.map_cons, List.map_cons, h1, (mapM_map_ok f l t).1 h2]
    · intro h
      match r with
      | [] => simp at h
      | b :: t =>
        rw [List.map_cons, List.map_cons, List.cons.injEq] at h
        exact ⟨b, t, h.1, (mapM_map_ok f l t).2 h.2, rfl⟩

theorem mapM_comp {A B C P : Type} (f : A × P → Py B) (g : B × P → Py C) : ∀ (xs : List A) (ps : List P) (ys : List C),
    xs.length = ps.length → ((xs.zip ps).mapM (fun a => f a >>= fun z => g (z, a.2)) = .ok ys ↔
      ∃ zs : List B, (xs.zip ps).mapM f = .ok zs ∧ zs.length = ps.length ∧ (zs.zip ps).mapM g = .ok ys)
  | [], [], ys, _ => by
    constructor
    · intro h
      exact ⟨[], rfl, rfl, h⟩
    · rintro ⟨zs, h1, -, h2⟩
      have : ([] : List B) = zs := Except.ok.inj h1
      subst this; exact h2
  | [], _ :: _, _, h => by simp at h
  | _ :: _, [], _, h => by simp at h
  | x :: xs, p :: ps, ys, hl => by
    rw [List.zip_cons_cons, mapM_cons_ok]
    constructor
    · rintro ⟨b, t, h1, h2, rfl⟩
      obtain ⟨z, h3, h4⟩ := (py_bind_ok _ _ _).1 h1
      obtain ⟨zs, h5, h6, h7⟩ := (mapM_comp f g xs ps t (by simpa using hl)).1 h2
      refine ⟨z :: zs, (mapM_cons_ok _ _ _ _).2 ⟨z, zs, h3, h5, rfl⟩, by simp [h6], ?_⟩
      rw [List.zip_cons_cons]
      exact (mapM_cons_ok _ _ _ _).2 ⟨b, t, h4, h7, rfl⟩
    · rintro ⟨zs', h1, h2, h3⟩
      obtain ⟨z, zs, h4, h5, rfl⟩ := (mapM_cons_ok _ _ _ _).1 h1
      rw [List.zip_cons_cons] at h3
      obtain ⟨b, t, h6, h7, rfl⟩ := (mapM_cons_ok _ _ _ _).1 h3
      exact ⟨b, t, (py_bind_ok _ _ _).2 ⟨z, h4, h6⟩, (mapM_comp f g xs ps t (by simpa using hl)).2 ⟨zs, h5, by simpa using h2, h7⟩, rfl⟩

section Rows
variable {n m : ℕ} {P : Type} (fn : (Fin n → ℝ) → P → ℝ) (con : (Fin n → ℝ) → P → Fin m → ℝ)

/-- One iteration for one element. -/
noncomputable def rowStep (a : ((Fin n → ℝ) × (Fin m → ℝ)) × P) : Py ((Fin n → ℝ) × (Fin m → ℝ)) := do
  let r ← adLocalStep (fun x => fn x a.2) (fun x => con x a.2) a.1.1 a.1.2
  return (r.1, r.2.1)

/-- All iterations for one element. -/
noncomputable def rowLoop (k : ℕ) (a : ((Fin n → ℝ) × (Fin m → ℝ)) × P) : Py ((Fin n → ℝ) × (Fin m → ℝ)) :=
  (List.range k).foldlM (fun st (_ : ℕ) => rowStep fn con (st, a.2)) a.1

theorem foldlM_range_const {S : Type} (f : S → Py S) (k : ℕ) (s : S) :
    (List.range (k + 1)).foldlM (fun st (_ : ℕ) => f st) s = f s >>= fun s' => (List.range k).foldlM (fun st (_ : ℕ) => f st) s' := by
  have h : ∀ (l l' : List ℕ) (s : S), l.length = l'.length → l.foldlM (fun st (_ : ℕ) => f st) s = l'.foldlM (fun st (_ : ℕ) => f st) s := by
    intro l
    induction l with
    | nil => intro l' s h; rw [List.length_eq_zero_iff.1 h.symm]
    | cons a l ih =>
      intro l' s h
      match l' with
      | [] => simp at h
      | b :: l' =>
        rw [List.foldlM_cons, List.foldlM_cons]
        congr 1
        funext s'
        exact ih l' s' (by simpa using h)
  rw [List.range_succ_eq_map, List.foldlM_cons]
  congr 1
  funext s'
  exact h _ _ s' (by simp)

theorem tfSqpBody_ok (pars : List P) (xs : List ((Fin n → ℝ) × (Fin m → ℝ))) (c : ℝ) (ys : List ((Fin n → ℝ) × (Fin m → ℝ))) :
    (∃ c', tfSqpBody fn con pars (xs, c) = .ok (ys, c')) ↔ (xs.zip pars).mapM (rowStep fn con) = .ok ys := by
  unfold tfSqpBody
  have key : ∀ l : List (((Fin n → ℝ) × (Fin m → ℝ)) × P), ∀ ys,
      (∃ rows : List (((Fin n → ℝ) × (Fin m → ℝ)) × (Fin n → ℝ)), l.mapM (fun a => do
        let x := a.1.1
        let lam := a.1.2
        let par := a.2
        let (_, Jf) := funValueGrad fn x par
        let (c, Jc) := conValueJac con x par
        let (_, Jl, HL) := lagValueGradHess fn con x lam par
        let (p, hlam) ← lqeSolve HL Jf Jc (-c)
        return ((x + p, hlam), Jl)) = .ok rows ∧ rows.map Prod.fst = ys) ↔ l.mapM (rowStep fn con) = .ok ys := by
    intro l
    induction l with
    | nil =>
      intro ys
      constructor
      · rintro ⟨rows, h1, rfl⟩
        have : ([] : List _) = rows := Except.ok.inj h1
        subst this; rfl
      · intro h
        have : ([] : List _) = ys := Except.ok.inj h
        subst this; exact ⟨[], rfl, rfl⟩
    | cons a l ih =>
      intro ys
      have hr : ∀ y, (∃ r : ((Fin n → ℝ) × (Fin m → ℝ)) × (Fin n → ℝ), (do
        let x := a.1.1
        let lam := a.1.2
        let par := a.2
        let (_, Jf) := funValueGrad fn x par
        let (c, Jc) := conValueJac con x par
        let (_, Jl, HL) := lagValueGradHess fn con x lam par
        let (p, hlam) ← lqeSolve HL Jf Jc (-c)
        return ((x + p, hlam), Jl)) = Except.ok r ∧ r.1 = y) ↔ rowStep fn con a = .ok y := by
        intro y
        unfold rowStep adLocalStep
        dsimp only [funValueGrad, conValueJac, lagValueGradHess, dotProduct]
        cases lqeSolve (adHess (fun x => fn x a.2 - ∑ i, a.1.2 i * con x a.2 i) a.1.1) (adGrad (fun x => fn x a.2) a.1.1)
          (adJac (fun x => con x a.2) a.1.1) (-con a.1.1 a.2) with
        | error e => constructor
                     · rintro ⟨_, h, -⟩; cases h
                     · intro h; cases h
        | ok r => constructor
                  · rintro ⟨q, h, rfl⟩
                    have := Except.ok.inj h
                    subst this; rfl
                  · intro h
                    exact ⟨_, rfl, Except.ok.inj h⟩
      constructor
      · rintro ⟨rows, h1, rfl⟩
        obtain ⟨b, t, h2, h3, rfl⟩ := (mapM_cons_ok _ _ _ _).1 h1
        exact (mapM_cons_ok _ _ _ _).2 ⟨b.1, t.map Prod.fst, (hr b.1).1 ⟨b, h2, rfl⟩, (ih _).1 ⟨t, h3, rfl⟩, rfl⟩
      · intro h
        obtain ⟨b, t, h2, h3, rfl⟩ := (mapM_cons_ok _ _ _ _).1 h
        obtain ⟨r, h4, rfl⟩ := (hr b).2 h2
        obtain ⟨rs, h5, rfl⟩ := (ih t).2 h3
        exact ⟨r :: rs, (mapM_cons_ok _ _ _ _).2 ⟨r, rs, h4, h5, rfl⟩, rfl⟩
  rw [← key]
  constructor
  · rintro ⟨c', h⟩
    obtain ⟨rows, h1, h2⟩ := (py_bind_ok _ _ _).1 h
    exact ⟨rows, h1, (Prod.mk.inj (Except.ok.inj h2)).1⟩
  · rintro ⟨rows, h1, rfl⟩
    exact ⟨_, (py_bind_ok _ _ _).2 ⟨rows, h1, rfl⟩⟩

theorem tfLoop_ok (pars : List P) : ∀ (k : ℕ) (xs : List ((Fin n → ℝ) × (Fin m → ℝ))) (c : ℝ) (ys : List ((Fin n → ℝ) × (Fin m → ℝ))),
    xs.length = pars.length →
    ((∃ c', (List.range k).foldlM (fun carry (_ : ℕ) => tfSqpBody fn con pars carry) (xs, c) = .ok (ys, c')) ↔
      (xs.zip pars).mapM (rowLoop fn con k) = .ok ys)
  | 0, xs, c, ys, hl => by
    have e : (xs.zip pars).mapM (rowLoop fn con 0) = .ok xs := by
      rw [mapM_map_ok]
      have : (xs.zip pars).map (rowLoop fn con 0) = ((xs.zip pars).map Prod.fst).map Except.ok := by
        rw [List.map_map]; rfl
      rw [this, List.map_fst_zip hl.le]
    rw [e]
    constructor
    · rintro ⟨c', h⟩
      rw [(Prod.mk.inj (Except.ok.inj h)).1]
    · intro h
      rw [Except.ok.inj h]
      exact ⟨c, rfl⟩
  | k + 1, xs, c, ys, hl => by
    have e : (rowLoop fn con (k + 1) : ((Fin n → ℝ) × (Fin m → ℝ)) × P → _) =
        fun a => rowStep fn con a >>= fun z => rowLoop fn con k (z, a.2) := by
      funext a
      exact foldlM_range_const (fun st => rowStep fn con (st, a.2)) k a.1
    rw [e, mapM_comp (rowStep fn con) (rowLoop fn con k) xs pars ys hl]
    rw [foldlM_range_const (fun carry => tfSqpBody fn con pars carry) k (xs, c)]
    constructor
    · rintro ⟨c', h⟩
      obtain ⟨⟨zs, c''⟩, h1, h2⟩ := (py_bind_ok _ _ _).1 h
      have h3 := (tfSqpBody_ok fn con pars xs c zs).1 ⟨c'', h1⟩
      have hz : zs.length = pars.length := by
        have := congrArg List.length ((mapM_map_ok _ _ _).1 h3)
        simpa [hl] using this.symm
      exact ⟨zs, h3, hz, (tfLoop_ok pars k zs c'' ys hz).1 ⟨c', h2⟩⟩
    · rintro ⟨zs, h1, h2, h3⟩
      obtain ⟨c'', h4⟩ := (tfSqpBody_ok fn con pars xs c zs).2 h1
      obtain ⟨c', h5⟩ := (tfLoop_ok pars k zs c'' ys h2).2 h3
      exact ⟨c', (py_bind_ok _ _ _).2 ⟨_, h4, h5⟩⟩

theorem rowLoop_eq (k : ℕ) (x : Fin n → ℝ) (p : P) (lam : Fin m → ℝ) (c : ℝ) :
    rowLoop fn con k ((x, lam), p) = (do
      let r ← (List.range k).foldlM (fun (st : (Fin n → ℝ) × (Fin m → ℝ) × ℝ) (_ : ℕ) =>
        adLocalStep (fun x => fn x p) (fun x => con x p) st.1 st.2.1) (x, lam, c)
      return (r.1, r.2.1)) := by
  induction k generalizing x lam c with
  | zero => rfl
  | succ k ih =>
    rw [show rowLoop fn con (k + 1) ((x, lam), p) = rowStep fn con ((x, lam), p) >>= fun z => rowLoop fn con k (z, p) from
      foldlM_range_const (fun st => rowStep fn con (st, p)) k (x, lam),
      foldlM_range_const (fun st : (Fin n → ℝ) × (Fin m → ℝ) × ℝ => adLocalStep (fun x => fn x p) (fun x => con x p) st.1 st.2.1) k]
    unfold rowStep
    dsimp only
    cases adLocalStep (fun x => fn x p) (fun x => con x p) x lam with
    | error e => rfl
    | ok r => exact ih r.1 r.2.1 r.2.2

end Rows

theorem meshPars_mem {x0s xfs : List ℝ} {p : ℝ × ℝ} (h : p ∈ meshPars x0s xfs) : p.1 ∈ x0s ∧ p.2 ∈ xfs := by
  unfold meshPars at h
  obtain ⟨h1, h2⟩ := List.of_mem_zip (a := p.1) (b := p.2) h
  constructor
  · obtain ⟨r, hr, h3⟩ := List.mem_flatten.1 h1
    obtain ⟨x0, hx, rfl⟩ := List.mem_map.1 hr
    obtain ⟨_, _, h5⟩ := List.mem_map.1 h3
    rw [← h5]; exact hx
  · obtain ⟨r, hr, h3⟩ := List.mem_flatten.1 h2
    obtain ⟨_, _, rfl⟩ := List.mem_map.1 hr
    exact h3

theorem gridEval_mesh {γ : Type} (one : ℝ → ℝ → γ) (x0s xfs : List ℝ) :
    gridEval one x0s xfs = (List.range x0s.length).map fun i =>
      (((meshPars x0s xfs).map fun p => one p.1 p.2).drop (i * xfs.length)).take xfs.length := by
  unfold gridEval meshPars
  dsimp only
  rw [List.map_zip_eq_zipWith]
  rfl

theorem zip_map_const {A P : Type} (a : A) : ∀ l : List P, (l.map fun _ => a).zip l = l.map fun p => (a, p)
  | [] => rfl
  | _ :: l => by rw [List.map_cons, List.zip_cons_cons, zip_map_const a l, List.map_cons]

theorem vEvalTF_ok {N : ℕ} (fc : (Fin N → ℝ) → ℝ × ℝ → Py (ℝ × ℝ)) (x0s xfs : List ℝ) (k : ℕ) (V : List (List ℝ)) :
    vEvalTF fc x0s xfs (k + 1) = .ok V ↔
      gridEval (fun x0 xf => vEvalCore (fun th => fc th (x0, xf)) (k + 1)) x0s xfs = V.map fun r => r.map Except.ok := by
  set par := meshPars x0s xfs with hpar
  have key : vEvalTF fc x0s xfs (k + 1) = .ok V ↔
      ∃ vs, par.mapM (fun p => vEvalCore (fun th => fc th p) (k + 1)) = .ok vs ∧ V = meshReshape x0s xfs vs := by
    set fn := fun (theta : Fin N → ℝ) (p : ℝ × ℝ) => (pyVal (fc theta p)).1 with hfn
    set con := fun (theta : Fin N → ℝ) (p : ℝ × ℝ) (_ : Fin 1) => (pyVal (fc theta p)).2 with hcon
    set xs : List ((Fin N → ℝ) × (Fin 1 → ℝ)) := par.map fun _ => (0, 0) with hxs
    have hl : xs.length = par.length := by simp [hxs]
    have hzip : xs.zip par = par.map fun p => (((0 : Fin N → ℝ), (0 : Fin 1 → ℝ)), p) :=
      zip_map_const _ par
    have hcore : ∀ vs, par.mapM (fun p => vEvalCore (fun th => fc th p) (k + 1)) = .ok vs ↔
        ((∃ us, par.mapM (fun p => fc 0 p) = .ok us) ∧ ∃ zs, (xs.zip par).mapM (rowLoop fn con (k + 1)) = .ok zs ∧ zs.length = par.length ∧
          (zs.zip par).mapM (fun a => do
            let v ← fc a.1.1 a.2
            return v.1) = .ok vs) := by
      intro vs
      rw [← mapM_comp (rowLoop fn con (k + 1)) (fun a => do
            let v ← fc a.1.1 a.2
            return v.1) xs par vs hl, mapM_map_ok, mapM_map_ok, hzip, List.map_map]
      have hone : ∀ p, vEvalCore (fun th => fc th p) (k + 1) = fc 0 p >>= fun _ =>
          (rowLoop fn con (k + 1) ((0, 0), p) >>= fun z => do
            let v ← fc z.1 p
            return v.1) := by
        intro p
        rw [rowLoop_eq fn con (k + 1) 0 p 0 1]
        unfold vEvalCore adLocalEqFast
        simp only [bind_assoc, pure_bind]
        rfl
      constructor
      · intro h
        have h0 : ∀ p ∈ par, ∃ u, fc 0 p = .ok u := by
          intro p hp
          have : vEvalCore (fun th => fc th p) (k + 1) ∈ par.map (fun p => vEvalCore (fun th => fc th p) (k + 1)) :=
            List.mem_map.2 ⟨p, hp, rfl⟩
          rw [h] at this
          obtain ⟨v, -, hv⟩ := List.mem_map.1 this
          rw [hone] at hv
          obtain ⟨u, hu, -⟩ := (py_bind_ok _ _ _).1 hv.symm
          exact ⟨u, hu⟩
        refine ⟨?_, ?_⟩
        · obtain ⟨us, h1, -⟩ := mapM_total (Q := fun _ => True) (f := fun p => fc 0 p) (l := par) (fun p hp => by
            obtain ⟨u, hu⟩ := h0 p hp
            exact ⟨u, hu, trivial⟩)
          exact ⟨us, mapM_ok_iff.2 h1⟩
        · rw [← h]
          apply List.map_congr_left
          intro p hp
          obtain ⟨u, hu⟩ := h0 p hp
          rw [hone, hu]
          rfl
      · rintro ⟨⟨us, hus⟩, h⟩
        rw [← h]
        apply List.map_congr_left
        intro p hp
        have : fc 0 p ∈ par.map (fun p => fc 0 p) := List.mem_map.2 ⟨p, hp, rfl⟩
        rw [(mapM_map_ok _ _ _).1 hus] at this
        obtain ⟨v, -, hv⟩ := List.mem_map.1 this
        rw [hone, ← hv]
        rfl
    have hs : ∀ x : List (Fin N → ℝ), x = par.map (fun _ => 0) → x.map (fun x => (x, (0 : Fin 1 → ℝ))) = xs := by
      rintro x rfl
      rw [List.map_map]; rfl
    unfold vEvalTF
    dsimp only
    rw [← hpar, ← bind_assoc (par.mapM _)]
    constructor
    · intro h
      obtain ⟨states, h1, h2⟩ := (py_bind_ok _ _ _).1 h
      obtain ⟨us, hus, h1⟩ := (py_bind_ok _ _ _).1 h1
      obtain ⟨st, h3, h4⟩ := (py_bind_ok _ _ _).1 h2
      obtain ⟨vs, h5, h6⟩ := (py_bind_ok _ _ _).1 h4
      have h7 : (xs.zip par).mapM (rowLoop fn con (k + 1)) = .ok st.1 := by
        rw [← tfLoop_ok fn con par (k + 1) xs 1 st.1 hl]
        refine ⟨st.2, ?_⟩
        rw [← tfScanFwdM_last _ (by simp)]
        refine (py_bind_ok _ _ _).2 ⟨states, ?_, h3⟩
        rw [← h1]
        unfold tfLocalEqFast
        rw [hs _ rfl]
      refine ⟨vs, (hcore vs).2 ⟨⟨us, hus⟩, st.1, h7, ?_, h5⟩, (Except.ok.inj h6).symm⟩
      have := congrArg List.length ((mapM_map_ok _ _ _).1 h7)
      simpa [hl] using this.symm
    · rintro ⟨vs, h, rfl⟩
      obtain ⟨⟨us, hus⟩, zs, h1, h2, h3⟩ := (hcore vs).1 h
      obtain ⟨c', h4⟩ := (tfLoop_ok fn con par (k + 1) xs 1 zs hl).2 h1
      rw [← tfScanFwdM_last _ (by simp)] at h4
      obtain ⟨states, h5, h6⟩ := (py_bind_ok _ _ _).1 h4
      refine (py_bind_ok _ _ _).2 ⟨states, (py_bind_ok _ _ _).2 ⟨us, hus, ?_⟩, ?_⟩
      · rw [← h5]
        unfold tfLocalEqFast
        rw [hs _ rfl]
      · refine (py_bind_ok _ _ _).2 ⟨(zs, c'), h6, (py_bind_ok _ _ _).2 ⟨vs, h3, rfl⟩⟩
  rw [key]
  have hre : ∀ vs : List ℝ, par.mapM (fun p => vEvalCore (fun th => fc th p) (k + 1)) = .ok vs →
      gridEval (fun x0 xf => vEvalCore (fun th => fc th (x0, xf)) (k + 1)) x0s xfs =
        (meshReshape x0s xfs vs).map fun r => r.map Except.ok := by
    intro vs hvs
    rw [gridEval_mesh, (mapM_map_ok _ _ _).1 hvs]
    unfold meshReshape
    rw [List.map_map]
    apply List.map_congr_left
    intro i _
    simp only [Function.comp, List.map_take, List.map_drop]
  constructor
  · rintro ⟨vs, h, rfl⟩
    exact hre vs h
  · intro h
    obtain ⟨vs, hvs, -⟩ := mapM_total (Q := fun _ => True) (f := fun p : ℝ × ℝ => vEvalCore (fun th => fc th p) (k + 1)) (l := par) (by
      intro p hp
      obtain ⟨h1, h2⟩ := meshPars_mem hp
      rw [gridEval_eq] at h
      have h3 : xfs.map (fun xf => vEvalCore (fun th => fc th (p.1, xf)) (k + 1)) ∈ V.map fun r => r.map Except.ok := by
        rw [← h]; exact List.mem_map.2 ⟨p.1, h1, rfl⟩
      obtain ⟨r, -, hr⟩ := List.mem_map.1 h3
      have h4 : vEvalCore (fun th => fc th (p.1, p.2)) (k + 1) ∈ r.map (Except.ok : ℝ → Py ℝ) := by
        rw [hr]; exact List.mem_map.2 ⟨p.2, h2, rfl⟩
      obtain ⟨v, -, hv⟩ := List.mem_map.1 h4
      exact ⟨v, hv.symm, trivial⟩)
    replace hvs := mapM_ok_iff.2 hvs
    refine ⟨vs, hvs, ?_⟩
    have := hre vs hvs
    rw [h] at this
    have hi : Function.Injective fun r : List ℝ => r.map (Except.ok : ℝ → Py ℝ) :=
      List.map_injective_iff.2 fun _ _ h => Except.ok.inj h
    exact List.map_injective_iff.2 hi this

end Verif
