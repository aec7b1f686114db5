import Verif.Model.Methods
import Verif.Model.CapeCod
import Verif.Model.ValDev

/-!
# Predicting with a fitted method (`methods/base.py`), dense backend

`validate_weight` only warns and is left out.
-/

namespace CL
namespace Tri
variable {K : Type} [Field K] [LinearOrder K] [IsStrictOrderedRing K]

/-- `index[labels]`: the rows of the index restricted to some of its key labels. -/
def indexFor (t : Tri K) (labels : List String) : List (List String) :=
  t.kdims.map fun k => labels.map fun l => k.getD (t.keyLabels.idxOf l) ""

/-- `t.iloc[rows of the index that are in keys]`. -/
def ilocKeys (t : Tri K) (labels : List String) (keys : List (List String)) : Except Err (Tri K) :=
  t.iloc (.lst (maskPositions ((t.indexFor labels).map fun k => decide (k ∈ keys)))) (.slc .all)
    (.slc .all) (.slc .all)

/-- `MethodBase.intersection` (`methods/base.py:120-137`). -/
def intersection (a b : Tri K) : Except Err (Tri K × Tri K) :=
  let labels := a.keyLabels.filter fun l => decide (l ∈ b.keyLabels)
  let keys := (a.indexFor labels).filter fun k => decide (k ∈ b.indexFor labels)
  if a.kdims.length = 1 ∧ b.kdims.length = 1 then .ok (a, b)
  else if labels = [] then .ok (a, b)
  else if (a.kdims.length = 1 ∨ b.kdims.length = 1) ∧ keys = [] then .ok (a, b)
  else do
    let b ← b.ilocKeys labels keys
    let a ← a.ilocKeys labels keys
    .ok (a, b)

/-- `X_new + (self.X_.val_to_dev().iloc[0,0].sum(2) * 0)` (`methods/base.py:112`); `x` and `m` are
development triangles. -/
def addAges (x m : Tri K) : Except Err (Tri K) := do
  let y ← m.iloc (.int 0) (.int 0) (.slc .all) (.slc .all)
  match y.sum .origin with
  | .scalar s => x.addArr (Arr.scalar (s * 0))
  | .tri y => do
    let y ← y.mulArr (Arr.scalar 0)
    x.add y

/-- `MethodBase.predict` (`methods/base.py:93-118`): the new triangle and its pattern.  `m` is the
triangle `X_` the method was fitted on and `f` is its pattern `ldf_`. -/
def predictBase (m f x : Tri K) : Except Err (Tri K × Tri K) := do
  let x ← x.valToDev
  match f.ddims.max? with
  | none => .error .valueError
  | some a =>
    if x.ddims.any fun d => decide (a < d) then .error .valueError
    else do
      let m ← m.valToDev
      let x ← x.addAges m
      x.intersection f

/-- `Chainladder.predict` (`methods/chainladder.py:46-61`). -/
def chainladderPredict (m f x : Tri K) : Except Err (Tri K) := do
  let (x, f) ← predictBase m f x
  x.chainladder f none

/-- `Benktander.predict` (`methods/benktander.py:70-90`) with `apriori_sigma = 0`: the ultimate.  Without
an exposure the product `sample_weight * self.apriori` is a `TypeError`.
`BornhuetterFerguson.predict` (`methods/bornferg.py:62-77`) and `ExpectedLoss.predict`
(`methods/expectedloss.py:62-77`) call it; they were fitted with 1 and 0 iterations. -/
def benktanderPredict (m f x : Tri K) (w : Option (Tri K)) (apriori : K) (n : Nat) :
    Except Err (Tri K) := do
  let (x, f) ← predictBase m f x
  match w with
  | none => .error .typeError
  | some w => x.benktander f (some w) apriori n

/-- `CapeCod.predict` (`methods/capecod.py:129-159`) of a cumulative triangle and an exposure without
`olf_`: the a-priori, the detrended a-priori, the expectation and the ultimate.  `labels` are the key
labels of the a-prioris of the model; the branch for a model with two or more labels fewer than the
exposure is not modelled. -/
def capecodPredict (fac : Int → K) (labels : List String) (m f x : Tri K) (w : Option (Tri K)) (decay : K)
    (n : Nat) : Except Err (Tri K × Tri K × Tri K × Tri K) :=
  match w with
  | none => .error .valueError
  | some w => do
    let (_, g) ← x.intersection f
    if 1 < (w.keyLabels.filter fun l => decide (l ∉ labels)).length then .error .unmodelled
    else do
      let trend ← x.trendFactors fac
      let (a, d) ← x.capecodAprioris g w decay trend (Arr.scalar 1) (Arr.scalar 1)
      let e ← w.mul d
      let u ← benktanderPredict m f x (some e) 1 n
      .ok (a, d, e, u)

end Tri
end CL
