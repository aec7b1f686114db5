import Verif.Lemmas.Coherent
import Verif.Spec.Examples

set_option linter.unusedSectionVars false

/-! # C18: labels and shape agree after any sequence of operations -/

namespace CL
open Tri
variable {K : Type} [Field K] [LinearOrder K] [IsStrictOrderedRing K]

instance (x y : Tri K) : Decidable (Safe x y) := by unfold Safe; infer_instance

/-- The triangles obtained from those in `S` by any number of operations that did not raise.  Operands
of binary operations and the parts of a concatenation are again obtained this way. -/
inductive Built (S : Tri K → Prop) : Tri K → Prop
  | base {t} : S t → Built S t
  | iloc {t u} (i c o d : Key) : Built S t → t.iloc i c o d = .ok u → Built S u
  | columns {t u} (cols : List String) : Built S t → t.getCols cols = .ok u → Built S u
  | originMask {t u} (m : List Bool) : Built S t → t.sliceOrigin m = .ok u → Built S u
  | devMask {t u} (m : List Bool) : Built S t → t.sliceDev m = .ok u → Built S u
  | valuation {t u} (P : Int → Bool) : Built S t → t.getVal P = .ok u → Built S u
  | add {t y u} : Built S t → Built S y → Safe t y → t.add y = .ok u → Built S u
  | sub {t y u} : Built S t → Built S y → Safe t y → t.sub y = .ok u → Built S u
  | mul {t y u} : Built S t → Built S y → Safe t y → t.mul y = .ok u → Built S u
  | div {t y u} : Built S t → Built S y → Safe t y → t.div y = .ok u → Built S u
  | addNum {t u} (x : Num K) : Built S t → t.addArr (Arr.scalar x) = .ok u → Built S u
  | subNum {t u} (x : Num K) : Built S t → t.subArr (Arr.scalar x) = .ok u → Built S u
  | mulNum {t u} (x : Num K) : Built S t → t.mulArr (Arr.scalar x) = .ok u → Built S u
  | divNum {t u} (x : Num K) : Built S t → t.divArr (Arr.scalar x) = .ok u → Built S u
  | rdiv {t} (x : Num K) : Built S t → Built S (t.rdiv x)
  | neg {t} : Built S t → Built S t.neg
  | lt {t} (x : Num K) : Built S t → Built S (t.lt x)
  | incrToCum {t} : Built S t → Built S t.incrToCum
  | cumToIncr {t u} : Built S t → t.cumToIncr = .ok u → Built S u
  | linkRatio {t u} : Built S t → t.linkRatio = .ok u → Built S u
  | devToVal {t u} : Built S t → t.devToVal = .ok u → Built S u
  | valToDev {t u} : Built S t → t.valToDev = .ok u → Built S u
  | devGrain {t u} (dg : Grain) : Built S t → t.grainTo t.ograin dg = .ok u → Built S u
  | sum {t u} (ax : Axis) : Built S t → t.axisLen ax ≠ 0 → t.sum ax = .tri u → Built S u
  | latest {t u} : Built S t → t.ddims ≠ [] → t.latestDiagonal = .ok (.tri u) → Built S u
  | groupIndex {t u} (labels : List String) (rows : List (List String)) : Built S t →
      t.groupbyIndexSum labels rows = .ok u → Built S u
  | groupColumns {t u} (by_ : List String) : Built S t → t.groupbyColumnsSum by_ = .ok u → Built S u
  | groupOrigin {t u} (by_ : List Int) : Built S t → t.groupbyOriginSum by_ = .ok u → Built S u
  | groupDev {t u} (by_ : List Nat) : Built S t → t.groupbyDevelopmentSum by_ = .ok u → Built S u
  | concat {u} (ax : Axis) (l : List (Tri K)) : (∀ t ∈ l, Built S t) → Tri.concat ax l = .ok u → Built S u
  | shift {t u} (p : Int) (ax : Axis) : Built S t → t.shift p ax = .ok u → Built S u
  | fillna {t u} (v : K) : Built S t → t.fillna v = .ok u → Built S u
  | dropna {t u} : Built S t → t.dropna = .ok u → Built S u

/-- **C18 (partial).**  After any sequence of operations that do not raise, the values have as many
entries along each of the four axes as the axis has labels.  Left out: a sum over an axis without labels,
arithmetic of a one-label axis with an axis without labels, and a change of the origin grain, for which
this is false. -/
theorem C18_partial {S : Tri K → Prop} (hS : ∀ t, S t → WF t) {u : Tri K} (h : Built S u) :
    u.values.d0 = u.kdims.length ∧ u.values.d1 = u.vdims.length ∧ u.values.d2 = u.odims.length ∧
      u.values.d3 = u.ddims.length := by
  show WF u
  induction h with
  | base h => exact hS _ h
  | iloc _ _ _ _ _ h _ => exact (iloc_picks h).1
  | columns _ _ h ih => exact (getCols_wf ih h).1
  | originMask _ _ h ih => exact sliceOrigin_wf ih h
  | devMask _ _ h ih => exact sliceDev_wf ih h
  | valuation _ _ h ih => exact getVal_wf ih h
  | add _ _ s h ih ih' => exact add_wf ih ih' s h
  | sub _ _ s h ih ih' => exact sub_wf ih ih' s h
  | mul _ _ s h ih ih' => exact mul_wf ih ih' s h
  | div _ _ s h ih ih' => exact div_wf ih ih' s h
  | addNum _ _ h ih => exact (addArr_scalar_revalued h).wf ih
  | subNum _ _ h ih => exact (subArr_scalar_revalued h).wf ih
  | mulNum _ _ h ih => exact (zipArr_scalar h).wf ih
  | divNum _ _ h ih => exact (zipArr_scalar h).wf ih
  | rdiv _ _ ih => exact ih
  | neg _ ih => exact ih
  | lt _ _ ih => exact ih
  | incrToCum _ ih => exact incrToCum_wf ih
  | cumToIncr _ h ih => exact cumToIncr_wf ih h
  | linkRatio _ h ih => exact linkRatio_wf ih h
  | devToVal _ h ih => exact devToVal_wf ih h
  | valToDev _ h ih => exact valToDev_wf ih h
  | devGrain _ _ h ih => exact grainTo_dev_wf ih h
  | sum _ _ hne h ih => exact sum_wf ih hne h
  | latest _ hne h ih => exact latestDiagonal_wf ih hne h
  | groupIndex _ _ _ h _ => exact groupbyIndexSum_wf h
  | groupColumns _ _ h _ => exact groupbyColumnsSum_wf h
  | groupOrigin _ _ h _ => exact groupbyOriginSum_wf h
  | groupDev _ _ h _ => exact (groupParts_wf h).1
  | concat _ _ _ h ih => exact (concat_wf ih h).1
  | shift _ _ _ h ih => exact shift_wf ih h
  | fillna _ _ h ih => exact fillna_wf ih h
  | dropna _ h ih => exact dropna_wf ih h

/-- A chain of operations: the triangle without its last age, made incremental, shifted by one origin, and
added to the whole triangle. -/
example : ∃ u : Tri ℚ, Built (· = Ex.tri3 (some true) Ex.cum3) u ∧ u.odims.length = 3 ∧
    u.values.d3 = 3 := by
  obtain ⟨u, hu, hu'⟩ := ok_of (x := (Ex.tri3 (some true) Ex.cum3).ilocD (.upto (-1)) >>= fun a =>
    a.cumToIncr >>= fun b => b.shift 1 .origin >>= fun c => (Ex.tri3 (some true) Ex.cum3).add c >>= fun d =>
      if Safe (Ex.tri3 (some true) Ex.cum3) c then .ok d else .error .valueError)
    (fun u => u.odims.length = 3 ∧ u.values.d3 = 3) (by decide +kernel)
  obtain ⟨a, ha, hu⟩ := bind_ok hu
  obtain ⟨b, hb, hu⟩ := bind_ok hu
  obtain ⟨c, hc, hu⟩ := bind_ok hu
  obtain ⟨d, hd, hu⟩ := bind_ok hu
  split_ifs at hu with hs
  injection hu with hu
  subst hu
  exact ⟨d, .add (.base rfl) (.shift _ _ (.cumToIncr (.iloc _ _ _ _ (.base rfl) ha) hb) hc) hs hd, hu'⟩

/-- A monthly triangle of November and December by valuation. -/
def C18months : Tri ℚ where
  kdims := [["a"]]
  keyLabels := ["k"]
  vdims := ["v"]
  odims := [24010, 24011]
  ddims := [24010, 24011]
  isVal := true
  ograin := .M
  dgrain := .M
  vd := 24011
  isCum := some true
  isPattern := false
  isAdditive := none
  values := ⟨1, 1, 2, 2, fun _ _ o d => if o = 0 then .fin (10 + d) else if d = 1 then .fin 5 else .nan⟩

/-- **C18 (false), sum over nothing.**  The origins before the first one, summed: one number per age under
no origin label. -/
theorem C18_sum_false : ∃ t a u : Tri ℚ, WF t ∧ t.ilocO (.upto 0) = .ok a ∧ a.sum .origin = .tri u ∧
    u.values.d2 = 1 ∧ u.odims = [] := by
  obtain ⟨a, ha, u, hu, hp⟩ : ∃ a, (Ex.tri3 (some true) Ex.cum3).ilocO (.upto 0) = .ok a ∧
      ∃ u, a.sum .origin = .tri u ∧ u.values.d2 = 1 ∧ u.odims = [] := by
    refine ⟨_, rfl, _, rfl, rfl, rfl⟩
  exact ⟨_, a, u, ⟨rfl, rfl, rfl, rfl⟩, ha, hu, hp⟩

/-- **C18 (false), arithmetic with nothing.**  One origin plus no origins: a label without values. -/
theorem C18_add_false : ∃ t a b u : Tri ℚ, WF t ∧ t.ilocO (.upto 0) = .ok a ∧ t.ilocO (.int 0) = .ok b ∧
    b.add a = .ok u ∧ u.values.d2 = 0 ∧ u.odims = [24240] := by
  obtain ⟨u, hu, hu'⟩ := ok_of (x := (Ex.tri3 (some true) Ex.cum3).ilocO (.upto 0) >>= fun a =>
    (Ex.tri3 (some true) Ex.cum3).ilocO (.int 0) >>= fun b => b.add a)
    (fun u => u.values.d2 = 0 ∧ u.odims = [24240]) (by decide +kernel)
  obtain ⟨a, ha, hu⟩ := bind_ok hu
  obtain ⟨b, hb, hu⟩ := bind_ok hu
  exact ⟨_, a, b, u, ⟨rfl, rfl, rfl, rfl⟩, ha, hb, hu, hu'⟩

/-- **C18 (false), origin grain.**  Two months, November and December, to years: ten labels are put in
front of the two valuations, but only two columns. -/
theorem C18_grain_false : WF C18months ∧ ∃ u, C18months.grain ['O', 'Y', 'D', 'M'] = .ok u ∧
    u.values.d3 = 4 ∧ u.ddims.length = 12 :=
  ⟨⟨rfl, rfl, rfl, rfl⟩, ok_of _ (by decide +kernel)⟩

end CL
