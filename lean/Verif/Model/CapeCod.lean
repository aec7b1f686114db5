import Verif.Model.Methods
import Verif.Model.Trend

/-!
# Cape Cod (`methods/capecod.py`), dense backend

Without `groupby`.  The on-level factors (`olf_`) and the trend factors are arrays; `trendFactors` is
the trend array of a triangle that has no `trend_` attribute.
-/

namespace CL
variable {K : Type} [Field K] [LinearOrder K] [IsStrictOrderedRing K]

namespace Arr

/-- `np.swapaxes(a, -1, -2)`. -/
def swap (a : Arr K) : Arr K :=
  ⟨a.d0, a.d1, a.d3, a.d2, fun i c o d => a.get i c d o⟩

/-- `np.nansum(a, -1)[..., None]` for an array with four axes. -/
def nansumLast (a : Arr K) : Arr K :=
  ⟨a.d0, a.d1, a.d2, 1, fun i c o _ => ∑ d ∈ Finset.range a.d3, (a.get i c o d).nan0⟩

end Arr

namespace Tri

/-- `decay_matrix` (`methods/capecod.py:113-115`). -/
def decayMatrix (decay : K) (n : Nat) : Arr K :=
  ⟨1, 1, n, n, fun _ _ o p => .fin (decay ^ ((o : Int) - p).natAbs)⟩

/-- The array of the a-prioris (`methods/capecod.py:113-123`) from the used-up exposure, the latest
diagonal, the trend and the on-level factors of the losses and of the exposure. -/
def capecodArr (decay : K) (n : Nat) (rep latest trend xolf swolf : Arr K) : Except Err (Arr K) := do
  let we ← Arr.zip (· * ·) rep.swap (decayMatrix decay n)
  let a ← Arr.zip (· * ·) latest trend
  let a ← Arr.zip (· * ·) a xolf
  let b ← Arr.zip (· * ·) rep swolf
  let tu ← Arr.zip (· / ·) a b
  let s ← Arr.zip (· * ·) we tu.swap
  Arr.zip (· / ·) s.nansumLast we.nansumLast

/-- `_get_capecod_aprioris` (`methods/capecod.py:98-127`) of a cumulative triangle: the a-priori and the
detrended a-priori. -/
def capecodAprioris (t f w : Tri K) (decay : K) (trend xolf swolf : Arr K) :
    Except Err (Tri K × Tri K) :=
  if t.isVal = true ∨ t.isCum = some false then .error .unmodelled
  else do
    let latest ← t.latestDiagonal
    let cdf ← t.alignCdf f (some w)
    let rep ← match cdf with
      | .tri s => w.div s
      | .scalar x => w.divArr (Arr.scalar x)
    match latest with
    | .scalar _ => .error .attributeError
    | .tri l => do
      let a ← capecodArr decay w.values.d2 rep.values l.values trend xolf swolf
      let apriori : Tri K := { rep with values := a }
      let detrended ← apriori.divArr trend
      let detrended ← detrended.divArr xolf
      let detrended ← detrended.mulArr swolf
      let x ← setUlt (.tri apriori)
      let y ← setUlt (.tri detrended)
      .ok (x, y)

/-- `_trend(X.iloc[0] * 0 + 1)` (`methods/capecod.py:109,161-171`). -/
def trendFactors (fac : Int → K) (t : Tri K) : Except Err (Arr K) := do
  let x ← t.iloc (.int 0) (.slc .all) (.slc .all) (.slc .all)
  let x ← x.mulArr (Arr.scalar 0)
  let x ← x.addArr (Arr.scalar 1)
  let y ← x.trend fac .origin none none none
  let r ← y.div x
  let l ← r.latestDiagonal
  match l with
  | .tri l => .ok l.values
  | .scalar _ => .error .attributeError

/-- `CapeCod.fit` (`methods/capecod.py:69-96`) of a triangle and an exposure without `olf_`: the
a-priori, the detrended a-priori, the expectation and the ultimate. -/
def capecod (fac : Int → K) (t f : Tri K) (w : Option (Tri K)) (decay : K) (n : Nat) :
    Except Err (Tri K × Tri K × Tri K × Tri K) :=
  match w with
  | none => .error .valueError
  | some w => do
    let trend ← t.trendFactors fac
    let (a, d) ← t.capecodAprioris f w decay trend (Arr.scalar 1) (Arr.scalar 1)
    let e ← w.mul d
    let u ← t.benktander f (some e) 1 n
    .ok (a, d, e, u)

end Tri
end CL
