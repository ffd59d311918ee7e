import Verif.Model.Drivers
import Verif.Proof.ExperimentsMain
import Verif.Proof.ExperimentsHJB

/-! Helper lemmas for the shell files. -/

namespace Verif

/-- The value stored for an argument. -/
def convArg : CfgType → ArgVal → Option CfgVal
  | .str, .str s => if '=' ∈ s then none else some (.str s)
  | .str, .int z => some (.str (fmtD z))
  | .int, .int z => some (.int z)
  | .float, .int z => some (.num z)
  | _, _ => none

/-- The dictionary after the arguments, if all of them are accepted. -/
def convArgs (keys : List (List Char × CfgType)) : Cfg → List (List Char × ArgVal) → Option Cfg
  | c, [] => some c
  | c, a :: as => if '=' ∈ a.1 then none else match keys.lookup a.1 with
    | none => none
    | some ty => match convArg ty a.2 with
      | none => none
      | some x => convArgs keys (c.set a.1 x) as

theorem cfgRead_convArg {fl : List Char → Py ℝ} (hfl : ∀ z : ℤ, fl (fmtD z) = .ok (z : ℝ)) {ty : CfgType} {k : List Char} {v : ArgVal}
    {x : CfgVal} (h : convArg ty v = some x) : ∃ w, argText (k, v) = k ++ '=' :: w ∧ '=' ∉ w ∧ cfgRead fl ty w = .ok x := by
  cases ty <;> cases v <;> simp only [convArg, Option.some.injEq, reduceCtorEq] at h
  · rename_i s
    split_ifs at h with hs
    exact ⟨s, rfl, hs, congrArg Except.ok (Option.some.inj h)⟩
  · rename_i z
    exact ⟨fmtD z, rfl, (fmtD_chars z).2, congrArg Except.ok h⟩
  · rename_i z
    refine ⟨fmtD z, rfl, (fmtD_chars z).2, ?_⟩
    subst h
    simp only [cfgRead, cfgInt_fmtD]
    rfl
  · rename_i z
    refine ⟨fmtD z, rfl, (fmtD_chars z).2, ?_⟩
    subst h
    simp only [cfgRead, hfl]
    rfl

theorem parse_convArgs {fl : List Char → Py ℝ} (hfl : ∀ z : ℤ, fl (fmtD z) = .ok (z : ℝ)) {keys : List (List Char × CfgType)} :
    ∀ {as : List (List Char × ArgVal)} {c c' : Cfg},
    convArgs keys c as = some c' → parseArgs fl keys c (as.map argText) = .ok c'
  | [], c, c', h => by
    cases h
    rfl
  | (k, v) :: as, c, c', h => by
    rw [convArgs] at h
    split_ifs at h with hk
    split at h
    · cases h
    rename_i ty hty
    split at h
    · cases h
    rename_i x hx
    obtain ⟨w, h1, h2, h3⟩ := cfgRead_convArg hfl (k := k) hx
    rw [List.map_cons, parseArgs_cons, h1, (parseArg_assign fl keys c hk h2 hty).1 x h3]
    exact parse_convArgs hfl h

theorem convArgs_cons {keys : List (List Char × CfgType)} {c c' : Cfg} {k : List Char} {v : ArgVal} {as : List (List Char × ArgVal)}
    {ty : CfgType} {x : CfgVal} (hk : '=' ∉ k) (hty : keys.lookup k = some ty) (hx : convArg ty v = some x)
    (h : convArgs keys (c.set k x) as = some c') : convArgs keys c ((k, v) :: as) = some c' := by
  rw [convArgs, if_neg hk]
  dsimp only
  rw [hty]
  dsimp only
  rw [hx]
  exact h

theorem convArg_str {s : List Char} (h : '=' ∉ s) : convArg .str (.str s) = some (.str s) := if_neg h

theorem lookup_set_eq (c : Cfg) (k : List Char) (x : CfgVal) : (c.set k x).lookup k = some x := by
  rw [cfg_lookup_set, if_pos rfl]

theorem lookup_set_ne {c : Cfg} {k j : List Char} {x : CfgVal} (h : j ≠ k) : (c.set k x).lookup j = c.lookup j := by
  rw [cfg_lookup_set, if_neg h]

/-- Evaluates `convArgs` on a list of arguments. -/
macro "conv_args" : tactic =>
  `(tactic| repeat' first | apply convArgs_cons (by decide) rfl (by first | exact convArg_str (by decide) | rfl) | exact rfl)

/-- The same with a device that has no equality sign. -/
macro "conv_args_dev" h:term : tactic =>
  `(tactic| repeat' first
    | apply convArgs_cons (by decide) rfl (by first | with_reducible exact convArg_str $h | exact convArg_str (by decide) | rfl)
    | exact rfl)

/-- Looks up a key in a dictionary after assignments. -/
macro "cfg_look" : tactic =>
  `(tactic| repeat' first | with_reducible exact lookup_set_eq _ _ _ | refine (lookup_set_ne (by decide)).trans ?_ | rfl)

/-! ### Directories -/

theorem foldl_write_of_not_mem (name : List Char) : ∀ (log : ExpLog) (d : Dir), (∀ f ∈ log, f.1 ≠ name) →
    log.foldl Dir.write d name = d name
  | [], _, _ => rfl
  | f :: log, d, h => by
    rw [List.foldl_cons, foldl_write_of_not_mem name log _ fun g hg => h g (List.mem_cons_of_mem _ hg), Dir.write,
      if_neg fun e => h f List.mem_cons_self e.symm]

theorem foldl_write_append (log log' : ExpLog) (d : Dir) :
    (log ++ log').foldl Dir.write d = log'.foldl Dir.write (log.foldl Dir.write d) := List.foldl_append

/-- The last file of a given name decides. -/
theorem foldl_write_last (name : List Char) (file : ExpFile) (pre post : ExpLog) (d : Dir) (h : ∀ f ∈ post, f.1 ≠ name) :
    (pre ++ (name, file) :: post).foldl Dir.write d name = some file := by
  rw [foldl_write_append, List.foldl_cons, foldl_write_of_not_mem name post _ h, Dir.write, if_pos rfl]

/-- A file that is written does not depend on what was there before. -/
theorem foldl_write_mem (name : List Char) : ∀ (log : ExpLog) (d d' : Dir), (∃ f ∈ log, f.1 = name) →
    log.foldl Dir.write d name = log.foldl Dir.write d' name
  | [], _, _, h => by simp at h
  | f :: log, d, d', h => by
    rw [List.foldl_cons, List.foldl_cons]
    by_cases hl : ∃ g ∈ log, g.1 = name
    · exact foldl_write_mem name log _ _ hl
    · have hn : ∀ g ∈ log, g.1 ≠ name := fun g hg e => hl ⟨g, hg, e⟩
      obtain ⟨g, hg, hgn⟩ := h
      rcases List.mem_cons.1 hg with rfl | hg
      · rw [foldl_write_of_not_mem name log _ hn, foldl_write_of_not_mem name log _ hn, Dir.write, Dir.write, if_pos hgn.symm,
          if_pos hgn.symm]
      · exact absurd hgn (hn g hg)

/-- Writing again under the same names replaces everything. -/
theorem foldl_write_replace (log log' : ExpLog) (d : Dir) (h : ∀ f ∈ log, ∃ g ∈ log', g.1 = f.1) :
    log'.foldl Dir.write (log.foldl Dir.write d) = log'.foldl Dir.write d := by
  funext name
  by_cases hn : ∃ g ∈ log', g.1 = name
  · exact foldl_write_mem name log' _ _ hn
  · rw [foldl_write_of_not_mem name log' _ fun g hg e => hn ⟨g, hg, e⟩, foldl_write_of_not_mem name log' _ fun g hg e => hn ⟨g, hg, e⟩,
      foldl_write_of_not_mem name log _ fun f hf e => hn (by obtain ⟨g, hg, hgf⟩ := h f hf; exact ⟨g, hg, hgf.trans e⟩)]

/-- With different names the directory has the given files. -/
theorem foldl_write_nodup {log : ExpLog} (hn : (log.map Prod.fst).Nodup) (d : Dir) {f : List Char × ExpFile} (hf : f ∈ log) :
    log.foldl Dir.write d f.1 = some f.2 := by
  obtain ⟨pre, post, rfl⟩ := List.append_of_mem hf
  rw [List.map_append, List.map_cons, List.nodup_append] at hn
  obtain ⟨-, h2, -⟩ := hn
  rw [List.nodup_cons] at h2
  exact foldl_write_last f.1 f.2 pre post d fun g hg e => h2.1 (List.mem_map.2 ⟨g, hg, e⟩)

/-- Writing again files that are there changes nothing. -/
theorem foldl_write_same : ∀ (log : ExpLog) (d : Dir), (∀ f ∈ log, d f.1 = some f.2) → log.foldl Dir.write d = d
  | [], _, _ => rfl
  | f :: log, d, h => by
    have : d.write f = d := by
      funext name
      rw [Dir.write]
      split_ifs with hn
      · rw [hn, h f List.mem_cons_self]
      · rfl
    rw [List.foldl_cons, this, foldl_write_same log d fun g hg => h g (List.mem_cons_of_mem _ hg)]

/-- The outcomes of a list of commands that depend on the world only through what is assumed of it. -/
theorem runDriver_map {α : Type} (W : ℕ → World) (l : List α) (cmd : α → Command) (out : α → ExpLog × Option ExpErr)
    (h : ∀ a ∈ l, ∀ k, (cmd a).run (W k) = out a) : runDriver W (l.map cmd) = l.map out := by
  rw [runDriver, List.zipIdx_map, List.map_map]
  have : ∀ (l : List α) (j : ℕ), (∀ a ∈ l, ∀ k, (cmd a).run (W k) = out a) →
      (l.zipIdx j).map ((fun p : Command × ℕ => p.1.run (W p.2)) ∘ Prod.map cmd id) = l.map out := by
    intro l
    induction l with
    | nil => intro _ _; rfl
    | cons a l ih =>
      intro j h
      rw [List.zipIdx_cons, List.map_cons, List.map_cons, ih (j + 1) fun b hb => h b (List.mem_cons_of_mem _ hb)]
      congr 1
      exact h a List.mem_cons_self j
  exact this l 0 h

theorem runDriver_append (W : ℕ → World) (as bs : List Command) :
    runDriver W (as ++ bs) = runDriver W as ++ runDriver (fun k => W (as.length + k)) bs := by
  unfold runDriver
  rw [List.zipIdx_append, List.map_append, Nat.zero_add]
  congr 1
  apply List.ext_getElem?
  intro j
  rw [List.getElem?_map, List.getElem?_map, List.getElem?_zipIdx, List.getElem?_zipIdx]
  cases bs[j]? <;> simp

theorem runDriver_getElem? (W : ℕ → World) (cs : List Command) (j : ℕ) : (runDriver W cs)[j]? = cs[j]?.map (Command.run (W j)) := by
  rw [runDriver, List.getElem?_map, List.getElem?_zipIdx, Option.map_map]
  cases cs[j]? <;> simp

/-- The tests run up to the first one that fails. -/
theorem runTests_cut (mask : ℤ) (write : List Char → List ExpRow → ExpLog) : ∀ tests : List ExpTest,
    (∀ t ∈ tests, mask / 2 ^ t.bit % 2 = 1) → ∃ (k : ℕ) (rows : ℕ → List ExpRow), k ≤ tests.length ∧
      (∀ i < k, ∃ t, tests[i]? = some t ∧ t.run = .ok (rows i)) ∧
      (runTests mask write tests).1 = (tests.take k).zipIdx.flatMap (fun p => write p.1.id (rows p.2)) ∧
      (k = tests.length ∧ (runTests mask write tests).2 = none ∨
        ∃ t e, tests[k]? = some t ∧ t.run = .error e ∧ (runTests mask write tests).2 = some e)
  | [], _ => ⟨0, fun _ => [], le_rfl, by simp, rfl, Or.inl ⟨rfl, rfl⟩⟩
  | t :: ts, h => by
    have ht := (land_two_pow mask t.bit).2 (h t List.mem_cons_self)
    rw [runTests, if_pos ht]
    cases hr : t.run with
    | error e => exact ⟨0, fun _ => [], by simp, by simp, rfl, Or.inr ⟨t, e, rfl, hr, rfl⟩⟩
    | ok r =>
      obtain ⟨k, rows, h1, h2, h3, h4⟩ := runTests_cut mask write ts fun s hs => h s (List.mem_cons_of_mem _ hs)
      refine ⟨k + 1, fun i => if i = 0 then r else rows (i - 1), by simpa using h1, ?_, ?_, ?_⟩
      · rintro (_ | i) hi
        · exact ⟨t, rfl, hr⟩
        · obtain ⟨s, g1, g2⟩ := h2 i (by omega)
          exact ⟨s, by simpa using g1, by simpa using g2⟩
      · dsimp only
        rw [h3, List.take_succ_cons, List.zipIdx_cons', List.flatMap_cons, List.flatMap_map]
        simp
      · rcases h4 with ⟨g1, g2⟩ | ⟨s, e, g1, g2, g3⟩
        · exact Or.inl ⟨by simpa using g1, g2⟩
        · exact Or.inr ⟨s, e, by simpa using g1, g2, g3⟩

/-- A continuous-time test either has an error for every number of blocks, or fails as one of them does. -/
theorem contTest_cases (Bs : List ℕ) (test : ℕ → Py ℝ) :
    (∀ r, contTest Bs test = .ok r → ∃ err : ℕ → ℝ, (∀ B ∈ Bs, test B = .ok (err B)) ∧
      r = Bs.map fun B : ℕ => ⟨[(B : ℤ), 4], [(err B : WithBot ℝ)]⟩) ∧
    ∀ e, contTest Bs test = .error e → ∃ B ∈ Bs, ∃ e', test B = .error e' ∧ e = .py e' := by
  have hcase : (∀ B ∈ Bs, test B = .ok (okVal (test B))) ∨ ∃ B ∈ Bs, ∃ e', test B = .error e' ∧ contTest Bs test = .error (.py e') := by
    induction Bs with
    | nil => exact Or.inl (by simp)
    | cons B Bs ih =>
      cases hB : test B with
      | error e' =>
        refine Or.inr ⟨B, List.mem_cons_self, e', hB, ?_⟩
        rw [contTest, List.mapM_cons, hB]
        rfl
      | ok v =>
        rcases ih with h | ⟨b, hb, e', h1, h2⟩
        · left
          intro b hb
          rcases List.mem_cons.1 hb with rfl | hb
          · exact okVal_ok hB
          · exact h b hb
        · refine Or.inr ⟨b, List.mem_cons_of_mem _ hb, e', h1, ?_⟩
          unfold contTest at h2 ⊢
          rw [List.mapM_cons, h2, hB]
          rfl
  rcases hcase with h | ⟨B, hB, e', h1, h2⟩
  · have := contTest_ok _ h
    constructor
    · intro r hr
      rw [this] at hr
      cases hr
      exact ⟨_, h, rfl⟩
    · intro e he
      rw [this] at he
      cases he
  · constructor
    · intro r hr
      rw [h2] at hr
      cases hr
    · intro e he
      rw [h2] at he
      cases he
      exact ⟨B, hB, e', h1, rfl⟩

end Verif
