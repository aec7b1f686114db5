import Verif.Lemmas.Tri

/-!
# What a triangle says

Vocabulary for the property statements; it uses only labels, the valuation date and the cells.
-/

namespace CL
namespace Tri
variable {K : Type} [Field K] [LinearOrder K] [IsStrictOrderedRing K]

/-- Every cell is missing or a finite number. -/
def Finite (t : Tri K) : Prop :=
  ∀ i < t.values.d0, ∀ c < t.values.d1, ∀ o < t.values.d2, ∀ d < t.values.d3,
    (t.values.get i c o d).NoInf

/-- No cell valued after the valuation date holds a number. -/
def Known (t : Tri K) : Prop :=
  ∀ i < t.values.d0, ∀ c < t.values.d1, ∀ o < t.values.d2, ∀ d < t.values.d3,
    t.valuation o d > t.vd → t.values.get i c o d = .nan

/-- Valuations do not decrease along the development axis. -/
def DevSorted (t : Tri K) : Prop :=
  ∀ o < t.odims.length, ∀ d < t.ddims.length, ∀ e ≤ d, t.valuation o e ≤ t.valuation o d

/-- The valuation date lies before the sentinel date of ultimate values. -/
def Dated (t : Tri K) : Prop := t.isVal = false → t.vd ≤ ultVal

/-- An ordinary triangle: labels match the array, ordered axes, finite amounts, nothing after the
valuation date. -/
structure Proper (t : Tri K) : Prop where
  wf : WF t
  ordered : Ordered t
  dated : Dated t
  nodup : t.ddims.Nodup
  sorted : DevSorted t
  finite : Finite t
  known : Known t

/-- As `Proper`, without conditions on the order of the development axis. -/
structure Regular (t : Tri K) : Prop where
  wf : WF t
  ordered : Ordered t
  finite : Finite t
  known : Known t

theorem Proper.regular {t : Tri K} (h : Proper t) : Regular t :=
  ⟨h.wf, h.ordered, h.finite, h.known⟩

/-- Same shape and the same amount (missing counts as 0) in every cell. -/
def SameAmounts (a b : Arr K) : Prop :=
  Arr.SameShape a b ∧
    ∀ i < b.d0, ∀ c < b.d1, ∀ o < b.d2, ∀ d < b.d3, (a.get i c o d).amt = (b.get i c o d).amt

/-- Same labels, grains, valuation date and pattern flag (not: values, cumulative flag). -/
def SameLabels (a b : Tri K) : Prop :=
  a.kdims = b.kdims ∧ a.keyLabels = b.keyLabels ∧ a.vdims = b.vdims ∧ a.odims = b.odims ∧
  a.ddims = b.ddims ∧ a.isVal = b.isVal ∧ a.ograin = b.ograin ∧ a.dgrain = b.dgrain ∧
  a.vd = b.vd ∧ a.isPattern = b.isPattern

end Tri
end CL
