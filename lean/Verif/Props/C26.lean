import Verif.Lemmas.Memory
import Verif.Spec.Examples

set_option linter.unusedSectionVars false

/-! # C26: methods with `inplace=True` -/

namespace CL
namespace Mem
variable {K : Type} [Field K] [LinearOrder K] [IsStrictOrderedRing K]

/-- **C26**: `obj.incr_to_cum(inplace=True)` returns the object itself, which then holds the cumulative
triangle: what `obj.incr_to_cum()` returns in a new object, leaving `obj` alone. -/
theorem C26_incrToCum (h : Heap K) (ho : h.Ok) (r : Nat) (hr : r < h.nobj) :
    (∃ h', exec h (.incrToCum r true) = (h', .ok r) ∧ h'.view r = (h.view r).incrToCum) ∧
      ∃ h' n, exec h (.incrToCum r false) = (h', .ok n) ∧ n ≠ r ∧ h'.view n = (h.view r).incrToCum ∧
        h'.view r = h.view r := by
  constructor
  · exact ⟨_, Prod.ext rfl (incrToCum_self h r).1, (incrToCum_self h r).2⟩
  · refine ⟨_, h.nobj, Prod.ext rfl (incrToCum_self (h.copy r) h.nobj).1, (ne_of_lt hr).symm, ?_, ?_⟩
    · show ((h.copy r).incrToCum h.nobj).1.view h.nobj = _
      rw [(incrToCum_self (h.copy r) h.nobj).2, view_copy h r hr]
    · exact (spares_exec ho hr (.incrToCum r false) hr (by intro e; cases e)).view

/-- **C26**: `obj.fillna(v, inplace=True)` returns the object itself, which then holds the filled triangle:
what `obj.fillna(v)` returns in a new object. -/
theorem C26_fillna (h : Heap K) (ho : h.Ok) (r : Nat) (hr : r < h.nobj) (v : K) (u : Tri K)
    (hu : (h.view r).fillna v = .ok u) :
    (∃ h', exec h (.fillna r v true) = (h', .ok r) ∧ h'.view r = u) ∧
      ∃ h' n, exec h (.fillna r v false) = (h', .ok n) ∧ n ≠ r ∧ h'.view n = u ∧ h'.view r = h.view r := by
  constructor
  · exact ⟨_, Prod.ext rfl (fillna_self h r v u hu).1, (fillna_self h r v u hu).2⟩
  · have hu' : ((h.copy r).view h.nobj).fillna v = .ok u := by rw [view_copy h r hr]; exact hu
    refine ⟨_, h.nobj, Prod.ext rfl (fillna_self (h.copy r) h.nobj v u hu').1, (ne_of_lt hr).symm, ?_, ?_⟩
    · exact (fillna_self (h.copy r) h.nobj v u hu').2
    · exact (spares_exec ho hr (.fillna r v false) hr (by intro e; cases e)).view

theorem cumToIncr_flag {t u : Tri K} (h : t.cumToIncr = .ok u) : u.isCum = some false := by
  unfold Tri.cumToIncr at h
  split at h
  · injection h with h; subst h; assumption
  · simp only at h
    split at h
    · obtain ⟨_, _, h⟩ := bind_ok h
      obtain ⟨_, _, h⟩ := bind_ok h
      obtain ⟨_, _, h⟩ := bind_ok h
      obtain ⟨_, _, h⟩ := bind_ok h
      obtain ⟨_, _, h⟩ := bind_ok h
      obtain ⟨_, _, h⟩ := bind_ok h
      injection h with h; subst h; rfl
    · obtain ⟨_, _, h⟩ := bind_ok h
      obtain ⟨_, _, h⟩ := bind_ok h
      obtain ⟨_, _, h⟩ := bind_ok h
      obtain ⟨_, _, h⟩ := bind_ok h
      obtain ⟨_, _, h⟩ := bind_ok h
      injection h with h; subst h; rfl

/-- **C26 is false** of `cum_to_incr`: whenever `obj.cum_to_incr(inplace=True)` has something to do, it
returns another object, and `obj` is still flagged cumulative.  A triangle of amounts is not changed
at all; of a pattern the missing and the zero factors were overwritten by ones. -/
theorem C26_cumToIncr_false (h : Heap K) (ho : h.Ok) (r : Nat) (hr : r < h.nobj) (u : Tri K)
    (hc : (h.view r).isCum ≠ some false) (hu : (h.view r).cumToIncr = .ok u) :
    ∃ h' n, exec h (.cumToIncr r true) = (h', .ok n) ∧ n ≠ r ∧ h'.view n = u ∧ h'.view r ≠ h'.view n ∧
      h'.view r = if (h.view r).isPattern then
          { h.view r with values := (h.view r).values.map fun x => x.nanToNum.numToValue 1 }
        else h.view r := by
  have hflag := cumToIncr_flag hu
  by_cases hp : (h.view r).isPattern = true
  · obtain ⟨a, ha⟩ : ∃ a, a = (h.view r).values.map fun x => x.nanToNum.numToValue 1 := ⟨_, rfl⟩
    have hex : exec h (.cumToIncr r true) = ((h.setValues r a).derive r u, .ok h.nobj) := by
      show h.cumToIncr r = _
      unfold Heap.cumToIncr
      simp only
      rw [if_neg hc, if_pos hp, hu, ← ha]; rfl
    have hok : (h.setValues r a).Ok := by
      -- as for any other object
      have hlt : ∀ q, ((h.setValues r a).obj q).buf = if q = r then h.nbuf else (h.obj q).buf := by
        intro q
        show (if q = r then ({ h.obj r with buf := h.nbuf } : Obj K) else h.obj q).buf = _
        split <;> rfl
      have hdict : ∀ q, ((h.setValues r a).obj q).dict = (h.obj q).dict := by
        intro q
        show (if q = r then ({ h.obj r with buf := h.nbuf } : Obj K) else h.obj q).dict = _
        split
        · rename_i e; rw [e]
        · rfl
      refine ⟨fun q hq => ?_, fun q hq => ?_, fun q hq s hs hqs => ?_⟩
      · rw [hlt]; show _ < h.nbuf + 1
        have := ho.buf q hq
        split <;> omega
      · rw [hdict]; exact ho.dict q hq
      · rw [hlt, hlt]
        have h1 := ho.buf q hq
        have h2 := ho.buf s hs
        have h3 := ho.own q hq s hs hqs
        split <;> split <;> omega
    have hv : ((h.setValues r a).derive r u).view r = { h.view r with values := a } := by
      rw [(spares_derive (x := r) hok (by exact hr) (by exact hr) u).view, view_setValues]
    have hn : ((h.setValues r a).derive r u).view h.nobj = u := view_derive (h.setValues r a) r u
    refine ⟨_, _, hex, (ne_of_lt hr).symm, hn, ?_, ?_⟩
    · rw [hv, hn]; intro e
      exact hc (by have := congrArg Tri.isCum e; rw [hflag] at this; exact this)
    · rw [hv, if_pos hp, ha]
  · have hex : exec h (.cumToIncr r true) = (h.derive r u, .ok h.nobj) := by
      show h.cumToIncr r = _
      unfold Heap.cumToIncr
      simp only
      rw [if_neg hc, if_neg hp, hu]
    have hv := (spares_derive (x := r) ho hr hr u).view
    have hn : (h.derive r u).view h.nobj = u := view_derive h r u
    refine ⟨_, _, hex, (ne_of_lt hr).symm, hn, ?_, ?_⟩
    · rw [hv, hn]; intro e; exact hc (by rw [e]; exact hflag)
    · rw [hv, if_neg hp]

/-- **C26 is false** of `grain`: `obj.grain(g, inplace=True)` returns another object and never changes
`obj`. -/
theorem C26_grain_false (h : Heap K) (ho : h.Ok) (r : Nat) (hr : r < h.nobj) (g : List Char) (u : Tri K)
    (hu : (h.view r).grain g = .ok u) :
    ∃ h' n, exec h (.grain r g true) = (h', .ok n) ∧ n ≠ r ∧ h'.view n = u ∧ h'.view r = h.view r := by
  have hex : exec h (.grain r g true) = (h.derive r u, .ok h.nobj) := by
    simp only [exec]; rw [hu]
  exact ⟨_, _, hex, (ne_of_lt hr).symm, view_derive h r u, (spares_derive (x := r) ho hr hr u).view⟩

/-- **C26**: the flag makes no difference where there is nothing to do. -/
theorem C26_cumToIncr_partial (h : Heap K) (r : Nat) (hc : (h.view r).isCum = some false) :
    exec h (.cumToIncr r true) = (h, .ok r) ∧ (h.view r).cumToIncr = .ok (h.view r) := by
  constructor
  · show h.cumToIncr r = _
    unfold Heap.cumToIncr
    simp only
    rw [if_pos hc]
  · unfold Tri.cumToIncr; rw [if_pos hc]

namespace Ex

/-- A heap with one object. -/
def one (t : Tri ℚ) (d : VDict ℚ) : Heap ℚ where
  obj := fun _ => ⟨t, 0, 0⟩
  buf := fun _ => t.values
  dict := fun _ => d
  nobj := 1
  nbuf := 1
  ndict := 1

theorem one_ok (t : Tri ℚ) (d : VDict ℚ) : (one t d).Ok :=
  ⟨fun _ _ => Nat.zero_lt_one, fun _ _ => Nat.zero_lt_one, fun r hr s hs h => by
    have h1 : r < 1 := hr
    have h2 : s < 1 := hs
    omega⟩

theorem one_own (t : Tri ℚ) (d : VDict ℚ) : (one t d).DictOwn 0 := fun r hr h => by
  have h1 : r < 1 := hr
  omega

/-- Two years by half-year ages. -/
def halves : Tri ℚ where
  kdims := [["Total"]]
  keyLabels := ["Total"]
  vdims := ["paid"]
  odims := [24240, 24252]
  ddims := [6, 12, 18, 24]
  isVal := false
  ograin := .Y
  dgrain := .S
  vd := 24263
  isCum := some true
  isPattern := false
  isAdditive := none
  values := ⟨1, 1, 2, 4, fun _ _ o d => if 6 * (d + 1) + 12 * o ≤ 24 then .fin (10 * (d + 1)) else .nan⟩

end Ex

example : ∃ u, ((Ex.one (CL.Ex.tri3 (some true) CL.Ex.cum3) []).view 0).cumToIncr = .ok u ∧
    u.values.get 0 0 0 1 = .fin 50 := ok_of _ (by decide +kernel)

example : ∃ u, ((Ex.one (CL.Ex.tri3 (some true) CL.Ex.cum3) []).view 0).fillna 7 = .ok u ∧
    u.values.get 0 0 0 0 = .fin 100 := ok_of _ (by decide +kernel)

/-- The object keeps its four ages, the returned one has two. -/
example : ∃ u, ((Ex.one Ex.halves []).view 0).grain ['O', 'Y', 'D', 'Y'] = .ok u ∧
    u.ddims = [12, 24] := ok_of _ (by decide +kernel)

end Mem
end CL
