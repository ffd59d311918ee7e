import Verif.Model.CondensingTensor

/-!
What it means that a tensor holds a batch of matrices or vectors with arbitrary finite index types.
-/

namespace Verif

variable {K β ι κ : Type} {a b : ℕ}

/-- Item `k` of the batch is the matrix `f bs[k]`; `e` and `e'` number its rows and columns. -/
def Tens.IsMt (t : Tens K) (e : ι ≃ Fin a) (e' : κ ≃ Fin b) (bs : List β) (f : β → Matrix ι κ K) : Prop :=
  t.shape = [bs.length, a, b] ∧ ∀ (k : ℕ) (h : k < bs.length) (i : ι) (j : κ), t.val [k, (e i).val, (e' j).val] = f bs[k] i j

/-- Item `k` of the batch is the vector `f bs[k]`; `e` numbers its entries. -/
def Tens.IsVt (t : Tens K) (e : ι ≃ Fin a) (bs : List β) (f : β → ι → K) : Prop :=
  t.shape = [bs.length, a] ∧ ∀ (k : ℕ) (h : k < bs.length) (i : ι), t.val [k, (e i).val] = f bs[k] i

/-- The numbering of the rows of two stacked blocks. -/
def sumE (e : ι ≃ Fin a) (e' : κ ≃ Fin b) : ι ⊕ κ ≃ Fin (a + b) := (Equiv.sumCongr e e').trans finSumFinEquiv

variable {n m p N : ℕ}

/-- The tensors of a problem: one item per step. -/
structure StageTens (ss : List (TStage n m p K)) (Fs cs Ls Hs rs Xs Us : Tens K) : Prop where
  F : Fs.IsMt (Equiv.refl _) (Equiv.refl _) ss (·.F)
  c : cs.IsVt (Equiv.refl _) ss (·.c)
  L : Ls.IsMt (Equiv.refl _) (Equiv.refl _) ss (·.L)
  H : Hs.IsMt (Equiv.refl _) (Equiv.refl _) ss (·.H)
  r : rs.IsVt (Equiv.refl _) ss (·.r)
  X : Xs.IsMt (Equiv.refl _) (Equiv.refl _) ss (·.X)
  U : Us.IsMt (Equiv.refl _) (Equiv.refl _) ss (·.U)

/-- The twelve tensors of a condensed problem: one item per block; row blocks are numbered one after the other. -/
structure TensCond.Holds (c : TensCond K) (bs : List (TCBlock N n m K)) : Prop where
  Fstar : c.Fstar.IsMt (Equiv.refl _) (Equiv.refl _) bs (·.stage.F)
  cstar : c.cstar.IsVt (Equiv.refl _) bs (·.stage.c)
  Lstar : c.Lstar.IsMt (Equiv.refl _) (Equiv.refl _) bs (·.stage.L)
  Hstar : c.Hstar.IsMt (Equiv.refl _) (Equiv.refl _) bs (·.stage.H)
  rstar : c.rstar.IsVt (Equiv.refl _) bs (·.stage.r)
  Xstar : c.Xstar.IsMt (Equiv.refl _) (Equiv.refl _) bs (·.stage.X)
  Ustar : c.Ustar.IsMt (Equiv.refl _) (Equiv.refl _) bs (·.stage.U)
  Mstar : c.Mstar.IsMt (Equiv.refl _) (Equiv.refl _) bs (·.stage.M)
  sstar : c.sstar.IsVt (Equiv.refl _) bs (·.stage.s)
  Lambda : c.Lambda.IsMt finProdFinEquiv (Equiv.refl _) bs (·.Lambda)
  cbar : c.cbar.IsVt finProdFinEquiv bs (·.cbar)
  Lbar : c.Lbar.IsMt finProdFinEquiv (Equiv.refl _) bs (·.Lbar)

end Verif
