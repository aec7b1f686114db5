import Verif.Lemmas.BoxVal
import Verif.Model.CaseOut
import Verif.Spec.CaseOut

set_option linter.unusedSectionVars false

/-! # The completed case reserves of `CaseOutstanding` -/

namespace CL
namespace CaseOut
open Tri
variable {K : Type} [Field K] [LinearOrder K] [IsStrictOrderedRing K]

/-- `f` has one factor `φ i d` per index and age, of age `d + 1` over age `d`. -/
structure Factors (x f : Tri K) (D : Nat) (fl : Flags) (φ : Nat → Nat → K) : Prop where
  wf : WF f
  kdims : f.kdims = x.kdims
  keyLabels : f.keyLabels = x.keyLabels
  one : f.vdims.length = 1
  single : f.odims.length = 1
  ages : f.ddims.length = D - 1
  isVal : f.isVal = false
  ograin : f.ograin = x.ograin
  dgrain : f.dgrain = x.dgrain
  flags : f.flags = fl
  cell : ∀ i < x.kdims.length, ∀ d < D - 1, f.values.get i 0 0 d = .fin (φ i d)

/-- The case reserves `C` up to the valuation date. -/
structure Reserves (x c : Tri K) (a : Int) (n D q : Nat) (C : Nat → Nat → Nat → K) : Prop where
  std : Standard c a n D q
  box : Box x c x.vd c.flags fun i o d => if q * o + d < D then .fin (C i o d) else .nan
  nonzero : ∀ i < x.kdims.length, ∀ o < n, ∀ d < D, q * o + d < D → C i o d ≠ 0

variable {x c f s : Tri K} {a : Int} {n D q : Nat} {C : Nat → Nat → Nat → K} {fl : Flags} {φ : Nat → Nat → K}

theorem reached_lt (hx : Grid x a n D q) {o : Nat} (ho : o < n) : q * o + reached D q o + 1 = D := by
  have := hx.row_le ho
  rw [Nat.mul_comm] at this
  unfold reached; omega

theorem latest_ok (hx : Grid x a n D q) (hc : Reserves x c a n D q C) : ∃ l, latest c = .ok l ∧ WF l ∧
    l.kdims = x.kdims ∧ l.keyLabels = x.keyLabels ∧ l.vdims.length = 1 ∧ l.odims = x.odims ∧ l.ddims.length = 1 ∧
    l.ograin = x.ograin ∧ l.isPattern = false ∧ l.vd = x.vd ∧
    ∀ i < x.kdims.length, ∀ o < n, l.values.get i 0 o 0 = .fin (C i o (reached D q o)) := by
  obtain ⟨l, h1, h2, h3⟩ := hc.std.diag
  refine ⟨l, by unfold latest; rw [h1]; rfl, h2.wf, h2.index.trans hc.box.kdims, h2.keyLabels.trans hc.box.keyLabels,
    by rw [h2.columns, hc.box.one], h2.origins.trans hc.box.odims, h2.one, h2.ograin.trans hc.box.ograin,
    h2.noPattern, h3.trans hc.box.vd, ?_⟩
  intro i hi o ho
  have hr := reached_lt hx ho
  rw [h2.cells i (by rw [hc.box.kdims]; exact hi) 0 (by rw [hc.box.one]; omega) o
    (by rw [hc.box.odims, hx.lenO]; exact ho)]
  have e : Tri.latest c D q i 0 o = C i o (reached D q o) := by
    show (c.values.get i 0 o (D - 1 - q * o)).amt = _
    have hd : D - 1 - q * o < D := by omega
    rw [hc.box.cell i hi o (by rw [hx.lenO]; exact ho) _ (by rw [hx.lenD]; exact hd), if_pos (by unfold reached at hr; omega)]
    rfl
  rw [e]
  exact Num.numToNan_fin_of_ne (hc.nonzero i hi o ho _ (by omega) (by omega))

/-- The factors of one origin by valuation. -/
def stepAt (D q : Nat) (φ : Nat → Nat → K) (i o k : Nat) : Num K :=
  if q * o ≤ k ∧ k < q * o + D then .fin (if k = q * o then 1 else φ i (k - q * o - 1)) else .nan

theorem spread_ok (hx : Grid x a n D q) (hq : Dev.valOffset x.dgrain x.ograin = some q)
    (hu : lastDate x a n D q < 12 * 2261) (hc : Reserves x c a n D q C) (hf : Factors x f D fl φ)
    (hfl : fl.1 ≠ some true) :
    ∃ s, spread c f = .ok s ∧ ValBox x s a n D q (fl.1, false, fl.2.2) (stepAt D q φ) := by
  have hD := hx.two_ages
  have hn := hx.two_origins
  obtain ⟨l, l1, lw, lk, ll, lv, lo, ld, lg, lp, lvd, lc⟩ := latest_ok hx hc
  set f' : Tri K := { f with vd := ultVal } with hf'
  obtain ⟨f0, f1, f2, f3⟩ := hf.wf
  obtain ⟨l0, l1', l2, l3⟩ := lw
  have compat : Compat f' l := by
    refine ⟨hf.wf, ⟨l0, l1', l2, l3⟩, hf.ograin.trans lg.symm, Or.inr ?_, hf.keyLabels.trans ll.symm,
      Or.inl (hf.kdims.trans lk.symm), Or.inr (Or.inl ⟨lv, ?_⟩), Or.inr (Or.inr ⟨hf.single, ?_⟩),
      Or.inr (Or.inl ⟨ld, ?_⟩), ?_⟩
    · rw [l3, ld]; omega
    · show 1 ≤ f.vdims.length; rw [hf.one]
    · rw [lo, hx.lenO]; omega
    · show 1 ≤ f.ddims.length; rw [hf.ages]; omega
    · intro _ h; omega
  have m1 := mul_compat compat
  set a1 := combined (· * ·) f' l with ha1
  have ek : longer f'.kdims l.kdims = x.kdims := by
    show longer f.kdims l.kdims = _; rw [hf.kdims, lk, longer_self]
  have ev : longer f'.vdims l.vdims = f.vdims := longer_one lv
  have eo : longer f'.odims l.odims = x.odims := by
    unfold longer
    rw [if_pos ⟨hf.single, by rw [lo, hx.lenO]; omega⟩, lo]
  have ed : longer f'.ddims l.ddims = f.ddims := longer_one ld
  have a1w : WF a1 := wf_combined _ _ _
  have a1k : a1.kdims = x.kdims := ek
  have a1v : a1.vdims = f.vdims := ev
  have a1o : a1.odims = x.odims := eo
  have a1d : a1.ddims = f.ddims := ed
  have a1i : a1.isVal = false := by
    show (if f'.ddims.length = 1 ∧ l.ddims.length > 1 then l.isVal else f'.isVal) = false
    rw [if_neg (by omega)]; exact hf.isVal
  have a1g : a1.dgrain = x.dgrain := by
    show (if f'.ddims.length = 1 ∧ l.ddims.length > 1 then l.dgrain else f'.dgrain) = _
    rw [if_neg (by omega)]; exact hf.dgrain
  have a1p : a1.isPattern = false := by
    show (f'.isPattern && l.isPattern) = false
    rw [lp, Bool.and_false]
  have a1c : ∀ i < x.kdims.length, ∀ o < n, ∀ d < D - 1,
      a1.values.get i 0 o d = .fin (φ i d) * .fin (C i o (reached D q o)) := by
    intro i hi o ho d hd
    show f'.values.get (Arr.bix _ (longer f'.kdims l.kdims).length i) (Arr.bix _ (longer f'.vdims l.vdims).length 0)
      (Arr.bix _ (longer f'.odims l.odims).length o) (Arr.bix _ (longer f'.ddims l.ddims).length d) *
      l.values.get (Arr.bix _ (longer f'.kdims l.kdims).length i) (Arr.bix _ (longer f'.vdims l.vdims).length 0)
      (Arr.bix _ (longer f'.odims l.odims).length o) (Arr.bix _ (longer f'.ddims l.ddims).length d) = _
    rw [ek, ev, eo, ed]
    show f.values.get (Arr.bix f.values.d0 _ i) (Arr.bix f.values.d1 _ 0) (Arr.bix f.values.d2 _ o)
      (Arr.bix f.values.d3 _ d) * _ = _
    rw [f0, f1, f2, f3, l0, l1', l2, l3, hf.kdims, lk, hf.one, lv, hf.single, lo, hf.ages, ld, hx.lenO]
    have e1 : Arr.bix 1 n o = 0 := by unfold Arr.bix; split_ifs <;> omega
    have e2 : Arr.bix 1 (D - 1) d = 0 := by unfold Arr.bix; split_ifs <;> omega
    rw [Arr.bix_self, Arr.bix_self, Arr.bix_self, Arr.bix_self, e1, e2, hf.cell i hi d hd, lc i hi o ho]
  have fits : FitsIn l a1 := by
    refine ⟨a1w, ⟨l0, l1', l2, l3⟩, hf.ograin.trans lg.symm, Or.inr ?_, hf.keyLabels.trans ll.symm,
      Or.inl (lk.trans a1k.symm), Or.inr ⟨lv, ?_⟩, Or.inl (lo.trans a1o.symm), Or.inr ⟨ld, ?_⟩⟩
    · rw [l3, ld]; omega
    · rw [a1v, hf.one]
    · rw [a1d, hf.ages]; omega
  have m2 := div_fits fits
  set a2 := zipped (· / ·) a1 l with ha2
  have s0 : a2.values.d0 = x.kdims.length := by rw [← a1k]; exact a1w.1
  have s1 : a2.values.d1 = 1 := by rw [← hf.one, ← a1v]; exact a1w.2.1
  have s2 : a2.values.d2 = n := by rw [← hx.lenO, ← a1o]; exact a1w.2.2.1
  have s3 : a2.values.d3 = D - 1 := by rw [← hf.ages, ← a1d]; exact a1w.2.2.2
  have a2c : ∀ i < x.kdims.length, ∀ o < n, ∀ d < D - 1, a2.values.get i 0 o d = .fin (φ i d) := by
    intro i hi o ho d hd
    show a1.values.get i 0 o d / l.values.get (Arr.bix l.values.d0 a1.values.d0 i) (Arr.bix l.values.d1 a1.values.d1 0)
      (Arr.bix l.values.d2 a1.values.d2 o) (Arr.bix l.values.d3 a1.values.d3 d) = _
    rw [show a1.values.d0 = x.kdims.length from s0, show a1.values.d1 = 1 from s1, show a1.values.d2 = n from s2,
      show a1.values.d3 = D - 1 from s3, l0, l1', l2, l3, lk, lv, lo, ld, hx.lenO]
    have e2 : Arr.bix 1 (D - 1) d = 0 := by unfold Arr.bix; split_ifs <;> omega
    have hr := reached_lt hx ho
    have hne := hc.nonzero i hi o ho (reached D q o) (by omega) (by omega)
    rw [Arr.bix_self, Arr.bix_self, Arr.bix_self, e2, lc i hi o ho, a1c i hi o ho d hd, Num.fin_mul_fin,
      Num.fin_div_fin_of_ne _ hne, mul_div_cancel_right₀ _ hne]
  -- the rectangle by age
  obtain ⟨V, hV⟩ : ∃ V : Arr K, V = { (⟨a2.values.d0, a2.values.d1, a2.values.d2, 1, fun _ _ _ _ => 1⟩ : Arr K) with
      d3 := 1 + a2.values.d3
      get := fun i c o d => if d < 1 then 1 else a2.values.get i c o (d - 1) } := ⟨_, rfl⟩
  have hcat : Arr.cat2 .development ⟨a2.values.d0, a2.values.d1, a2.values.d2, 1, fun _ _ _ _ => 1⟩ a2.values =
      .ok V := by
    unfold Arr.cat2
    simp only [and_self, if_true]
    rw [hV]
  set b0 : Tri K := { a2 with
    odims := c.odims
    isPattern := false
    values := V
    ddims := c.ddims } with hb0
  have boxV : ∀ w, Box x { b0 with vd := w } w (fl.1, false, fl.2.2)
      fun i o d => .fin (if d = 0 then 1 else φ i (d - 1)) := by
    intro w
    refine ⟨⟨?_, ?_, ?_, ?_⟩, a1k, hf.keyLabels, ?_, hc.box.odims, hc.box.ddims, a1i, hf.ograin, a1g, rfl, ?_, ?_⟩
    · show V.d0 = a1.kdims.length
      rw [hV, a1k]; exact s0
    · show V.d1 = a1.vdims.length
      rw [hV, a1v, hf.one]; exact s1
    · show V.d2 = c.odims.length
      rw [hV, hc.box.odims, hx.lenO]; exact s2
    · show V.d3 = c.ddims.length
      rw [hV, hc.box.ddims, hx.lenD]
      show 1 + a2.values.d3 = D
      rw [s3]; omega
    · show a1.vdims.length = 1
      rw [a1v, hf.one]
    · rw [← hf.flags]; rfl
    · intro i hi o ho d hd
      rw [hx.lenO] at ho
      rw [hx.lenD] at hd
      show V.get i 0 o d = _
      rw [hV]
      show (if d < 1 then 1 else a2.values.get i 0 o (d - 1)) = _
      by_cases h : d = 0
      · subst h; rfl
      · rw [if_neg (by omega), if_neg h, a2c i hi o ho (d - 1) (by omega)]
  have bult : b0.vd = ultVal := by
    show max (max ultVal l.vd) l.vd = ultVal
    rw [lvd, max_assoc, max_self]
    exact max_eq_left hx.early
  have hmax : b0.valuations.max? = some (lastDate x a n D q) := by
    have hb : Box x b0 ultVal (fl.1, false, fl.2.2) fun i o d => .fin (if d = 0 then 1 else φ i (d - 1)) := by
      have := boxV b0.vd
      rw [bult] at this
      have e : ({ b0 with vd := ultVal } : Tri K) = b0 := by rw [← bult]
      rwa [e] at this
    rw [List.max?_eq_some_iff]
    constructor
    · refine mem_valuations.2 ⟨n - 1, D - 1, ?_, ?_, ?_⟩
      · rw [hb.odims, hx.lenO]; omega
      · rw [hb.ddims, hx.lenD]; omega
      · rw [hb.valuation hx hx.early (by omega)]; exact hx.valuation_is_last
    · intro y hy
      obtain ⟨o, d, ho, hd, rfl⟩ := mem_valuations.1 hy
      rw [hb.odims, hx.lenO] at ho
      rw [hb.ddims, hx.lenD] at hd
      rw [hb.valuation hx hx.early ho]
      exact hx.valuation_last ho hd
  obtain ⟨s, hs, hbox⟩ := (boxV (lastDate x a n D q)).devToVal hx hq hu hfl
    fun i hi o ho d hd => ⟨trivial, by simp⟩
  refine ⟨s, ?_, ?_⟩
  · unfold spread
    simp only [l1, bind, Except.bind]
    rw [m1]
    simp only
    rw [m2]
    simp only
    rw [hcat]
    simp only
    rw [← hb0, hmax]
    exact hs
  · refine { hbox with cell := ?_ }
    intro i hi o ho k hk
    rw [hbox.cell i hi o ho k hk]
    unfold stepAt
    by_cases h : q * o ≤ k ∧ k < q * o + D
    · rw [if_pos h, if_pos h]
      congr 1
      by_cases h' : k = q * o
      · rw [if_pos h', if_pos (by omega)]
      · rw [if_neg h', if_neg (by omega)]
    · rw [if_neg h, if_neg h]

end CaseOut
end CL
