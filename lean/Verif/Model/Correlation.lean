import Verif.Model.ValDev
import Mathlib.Algebra.Order.Floor.Semiring
import Mathlib.Data.Nat.Choose.Basic

/-!
# Correlation tests (`core/correlation.py`)

Not modelled: the labels of the result (only its arrays), and the quantile function of the normal
distribution, which is a parameter.
-/

namespace CL
namespace Corr
variable {K : Type} [Field K] [LinearOrder K] [IsStrictOrderedRing K]

/-- `validate_critical` (`core/correlation.py:263-277`). -/
def validateCritical (p : K) : Except Err Unit :=
  if 0 ≤ p ∧ p ≤ 1 then .ok () else .error .valueError

/-- `rankdata(..., nan_policy="omit")` of one column of length `n`: the average rank among the
entries that are not NaN. -/
def avgRank (n : Nat) (f : Nat → Num K) (o : Nat) : Num K :=
  if (f o).isNan then .nan
  else .fin (((List.range n).filter fun o' => (f o').ltb (f o)).length +
    (((List.range n).filter fun o' => (f o').eqb (f o)).length + 1) / 2)

/-- `rankdata(col) * (col * 0 + 1)` (`core/correlation.py:63-65,183-185`). -/
def ranks (n : Nat) (f : Nat → Num K) (o : Nat) : Num K := avgRank n f o * (f o * 0 + 1)

/-- `np.nanmedian` of one column (which holds no infinities). -/
def nanmedian (n : Nat) (f : Nat → Num K) : Num K :=
  let l := ((List.range n).filterMap fun o => match f o with
    | .fin a => some a
    | _ => none).insertionSort (· ≤ ·)
  if l = [] then .nan
  else .fin ((l.getD ((l.length - 1) / 2) 0 + l.getD (l.length / 2) 0) / 2)

/-- `m1large` and `m1small` (`core/correlation.py:191-192`) at one cell of a column. -/
def isLarge (n : Nat) (f : Nat → Num K) (o : Nat) : Num K :=
  Num.ofBool ((nanmedian n (ranks n f)).ltb (ranks n f o).nanToNum) + f o * 0
@[inherit_doc isLarge]
def isSmall (n : Nat) (f : Nat → Num K) (o : Nat) : Num K :=
  Num.ofBool ((ranks n f o).nanToNum.ltb (nanmedian n (ranks n f))) + f o * 0

/-- `m1large`/`m1small` as an array, columns running along the origin axis. -/
def marks (mark : Nat → (Nat → Num K) → Nat → Num K) (a : Arr K) : Arr K :=
  { a with get := fun i c o d => mark a.d2 (fun o => a.get i c o d) o }

/-- `S` and `L` (`core/correlation.py:193-198`): how many ratios of each calendar period are small
or large.  A single cell comes back from `sum` as a number, which has no `set_backend`. -/
def counts (lr : Tri K) (a : Arr K) : Except Err (Arr K) := do
  let w ← ({ lr with values := a } : Tri K).devToVal
  match w.sum .origin with
  | .tri s => .ok (s.values.map Num.nanToNum)
  | .scalar _ => .error .attributeError

/-- A float holding a count. -/
def natOf [FloorSemiring K] : Num K → ℕ
  | .fin a => ⌊a⌋₊
  | _ => 0

/-- `comb(n - 1, floor((n - 1) / 2))` (`core/correlation.py:201-202`); scipy gives 0 for `n = 0`. -/
def zComb (n : ℕ) : ℕ := if n = 0 then 0 else (n - 1).choose ((n - 1) / 2)

/-- `EZ` (`core/correlation.py:203`). -/
def zMean (n : ℕ) : K := n / 2 - zComb n * n / 2 ^ n

/-- `VarZ` (`core/correlation.py:204`). -/
def zVar (n : ℕ) : K :=
  n * (n - 1) / 4 - zComb n * n * (n - 1) / 2 ^ n + zMean n - (zMean n) ^ 2

/-- `pZlower` (`core/correlation.py:168-169`): `min(1, 2 * binom.cdf(z, n, 0.5))`. -/
def pZlower (z n : ℕ) : K := min 1 (2 * ((∑ k ∈ Finset.range (z + 1), (n.choose k : K)) / 2 ^ n))

/-- The arrays `ValuationCorrelation` works with. -/
structure ValTest (K : Type) where
  d0 : ℕ
  d1 : ℕ
  periods : ℕ
  /-- `L` and `S` -/
  large : ℕ → ℕ → ℕ → ℕ
  small : ℕ → ℕ → ℕ → ℕ

namespace ValTest

/-- `z` and `n` (`core/correlation.py:199-200`). -/
def z (r : ValTest K) (i c k : ℕ) : ℕ := min (r.large i c k) (r.small i c k)
@[inherit_doc z]
def n (r : ValTest K) (i c k : ℕ) : ℕ := r.large i c k + r.small i c k

/-- `z_expectation`, `z_variance`, and `z_critical` for `total=False`
(`core/correlation.py:205-232`). -/
def expectation (r : ValTest K) (i c k : ℕ) : K := zMean (r.n i c k)
@[inherit_doc expectation]
def variance (r : ValTest K) (i c k : ℕ) : K := zVar (r.n i c k)
@[inherit_doc expectation]
def critical (r : ValTest K) (p : K) (i c k : ℕ) : Bool :=
  decide (pZlower (r.z i c k) (r.n i c k) < p)

/-- `z.sum(axis=-1)`, `EZ.sum(axis=-1)`, `VarZ.sum(axis=-1)`. -/
def totalZ (r : ValTest K) (i c : ℕ) : K := ∑ k ∈ Finset.range r.periods, (r.z i c k : K)
@[inherit_doc totalZ]
def totalExpectation (r : ValTest K) (i c : ℕ) : K :=
  ∑ k ∈ Finset.range r.periods, r.expectation i c k
@[inherit_doc totalZ]
def totalVariance (r : ValTest K) (i c : ℕ) : K := ∑ k ∈ Finset.range r.periods, r.variance i c k

/-- `range` for `total=True` (`core/correlation.py:234-235`); `ppf` is `norm.ppf` and `sqrt` the
square root. -/
def range (ppf sqrt : K → K) (r : ValTest K) (p : K) (i c : ℕ) : K × K :=
  let ci2 := ppf (1 / 2 - (1 - p) / 2) * sqrt (r.totalVariance i c)
  (r.totalVariance i c + ci2, r.totalVariance i c - ci2)

/-- `z_critical` for `total=True` (`core/correlation.py:237-244`). -/
def totalCritical (ppf sqrt : K → K) (r : ValTest K) (p : K) (i c : ℕ) : Bool :=
  decide ((r.range ppf sqrt p i c).1 > r.totalVariance i c) ||
    decide (r.totalVariance i c > (r.range ppf sqrt p i c).2)

end ValTest

/-- `ValuationCorrelation.__init__` (`core/correlation.py:165-204`): the counts of large and small
ratios, from which the rest is computed. -/
def valuationTest [FloorSemiring K] (t : Tri K) (p : K) : Except Err (ValTest K) := do
  validateCritical p
  let lr ← t.linkRatio
  let s ← counts lr (marks isSmall lr.values)
  let l ← counts lr (marks isLarge lr.values)
  .ok ⟨s.d0, s.d1, s.d3, fun i c k => natOf (l.get i c 0 k), fun i c k => natOf (s.get i c 0 k)⟩

/-- `x ** n` for a natural number `n` (`core/dunders.py:306-316`). -/
def powNat (t : Tri K) (n : ℕ) : Tri K :=
  { t with values := t.values.map fun x => x.nanToNum.npow n }

/-- The attributes of `DevelopmentCorrelation`; `t` and `weights` are listed by `k - 2`.  The code
shows `t` for the first index and column only. -/
structure DevTest (K : Type) where
  pairs : ℕ
  t : ℕ → ℕ → ℕ → Num K
  weights : ℕ → K
  expectation : ℕ → ℕ → Num K
  variance : K

/-- `T_k` and the rest from the numerator (`core/correlation.py:84-110`), `I` being the number of
ages. -/
def devStats (num : Arr K) (I : ℕ) : DevTest K :=
  let den : ℕ → K := fun j => (((I : Int) - (j + 2)) ^ 3 - I + (j + 2) : Int)
  let weight : ℕ → K := fun j => ((I : Int) - (j + 2) - 1 : Int)
  let tk : ℕ → ℕ → ℕ → Num K := fun i c j =>
    1 - .fin 6 * (num.get i c 0 j).nanToNum / .fin (den j)
  { pairs := num.d3
    t := tk
    weights := weight
    expectation := fun i c => (∑ j ∈ Finset.range num.d3, (.fin (weight j) * tk i c j).nanToNum) /
      .fin (∑ j ∈ Finset.range num.d3, weight j)
    variance := 2 / (((I : K) - 2) * ((I : K) - 3)) }

/-- `DevelopmentCorrelation.__init__` (`core/correlation.py:50-121`) up to `t_expectation`. -/
def developmentTest (t : Tri K) (p : K) : Except Err (DevTest K) := do
  validateCritical p
  let m1 ← t.linkRatio
  let m1val := marks ranks m1.values
  let t' ← t.getVal (fun v => v < t.vd)
  let lr ← t'.linkRatio
  let m2 : Tri K := { lr with values := marks ranks lr.values }
  let m1 : Tri K := { m2 with values :=
    ⟨m1val.d0, m1val.d1, min m2.values.d2 m1val.d2, m1val.d3 - 1, fun i c o d =>
      m1val.get i c o (d + 1)⟩ }
  let diff ← m1.sub m2
  match (powNat diff 2).sum .origin with
  | .scalar _ => .error .attributeError
  | .tri num =>
    if t.ddims.length = 2 ∨ t.ddims.length = 3 then .error .zeroDivisionError
    else .ok (devStats { num.values with d3 := num.values.d3 - 1 } t.ddims.length)

/-- `confidence_interval` and `t_critical` (`core/correlation.py:131-141`); `ppf` is `norm.ppf` and
`sqrt` the square root. -/
def DevTest.critical (ppf sqrt : K → K) (r : DevTest K) (p : K) (i c : ℕ) : Bool :=
  (r.expectation i c).ltb (.fin (ppf (1 / 2 - (1 - p) / 2) * sqrt r.variance)) ||
    (Num.fin (ppf (1 / 2 + (1 - p) / 2) * sqrt r.variance)).ltb (r.expectation i c)

end Corr
end CL
