import Verif.Lemmas.Box
import Verif.Lemmas.FullRun
import Verif.Lemmas.AxSel

set_option linter.unusedSectionVars false

/-! # Full rectangles by valuation -/

namespace CL
namespace Tri
variable {K : Type} [Field K] [LinearOrder K] [IsStrictOrderedRing K]

/-- The number of valuations of the full rectangle. -/
def spans (n D q : Nat) : Nat := q * (n - 1) + D

/-- The valuation of its last cell. -/
def lastDate (x : Tri K) (a : Int) (n D q : Nat) : Int := a + (spans n D q * x.dgrain.months : Nat) - 1

/-- `s` has one column and the index and origins of `x`, and cells `f` by valuation. -/
structure ValBox (x s : Tri K) (a : Int) (n D q : Nat) (fl : Flags) (f : Nat → Nat → Nat → Num K) : Prop
    extends ValGrid s a n (spans n D q) q x.dgrain.months where
  kdims : s.kdims = x.kdims
  keyLabels : s.keyLabels = x.keyLabels
  one : s.vdims.length = 1
  rows : s.odims = x.odims
  ograin : s.ograin = x.ograin
  dgrain : s.dgrain = x.dgrain
  flags : s.flags = fl
  cell : ∀ i < x.kdims.length, ∀ o < n, ∀ k < spans n D q, s.values.get i 0 o k = f i o k

variable {x b s : Tri K} {a : Int} {n D q : Nat} {V : Int} {fl : Flags} {f : Nat → Nat → Nat → Num K}

theorem Grid.le_last (hx : Grid x a n D q) : x.vd ≤ lastDate x a n D q := by
  rw [hx.vd]
  unfold lastDate spans
  have : D * x.dgrain.months ≤ (q * (n - 1) + D) * x.dgrain.months := Nat.mul_le_mul_right _ (by omega)
  omega

theorem Grid.valuation_last (hx : Grid x a n D q) {o d : Nat} (ho : o < n) (hd : d < D) :
    x.valuation o d ≤ lastDate x a n D q := by
  rw [hx.valuation ho hd]
  unfold lastDate spans
  have h1 : q * o ≤ q * (n - 1) := Nat.mul_le_mul_left _ (by omega)
  have : (q * o + d + 1) * x.dgrain.months ≤ (q * (n - 1) + D) * x.dgrain.months := Nat.mul_le_mul_right _ (by omega)
  omega

theorem Grid.valuation_is_last (hx : Grid x a n D q) : x.valuation (n - 1) (D - 1) = lastDate x a n D q := by
  have h1 := hx.two_ages
  have h2 := hx.two_origins
  rw [hx.valuation (by omega) (by omega)]
  unfold lastDate spans
  rw [show q * (n - 1) + (D - 1) + 1 = q * (n - 1) + D by omega]

/-- A cell of the rectangle with the given valuation. -/
theorem Grid.cell_at (hx : Grid x a n D q) {k : Nat} (hk : k < spans n D q) :
    ∃ o < n, ∃ d < D, q * o + d = k := by
  have h0 := hx.two_origins
  have h1 := hx.recent
  unfold spans at hk
  by_cases h : k < D
  · exact ⟨0, by omega, k, h, by omega⟩
  · exact ⟨n - 1, by omega, k - q * (n - 1), by omega, by omega⟩

theorem Box.knownValuations (hx : Grid x a n D q) (hb : Box x b (lastDate x a n D q) fl f) :
    Dev.knownValuations b = (List.range (spans n D q)).map fun k : Nat =>
      a + x.dgrain.months - 1 + (k * x.dgrain.months : Nat) := by
  have hp := months_pos x.dgrain
  have hv := hx.le_last
  refine List.Pairwise.eq_of_mem_iff (knownValuations_sorted b) ?_ fun y => ?_
  · rw [List.pairwise_map]
    refine List.pairwise_lt_range.imp fun {i j} hij => ?_
    have : i * x.dgrain.months < j * x.dgrain.months := Nat.mul_lt_mul_of_pos_right (by omega) hp
    omega
  · rw [mem_knownValuations, hb.odims, hb.ddims, hx.lenO, hx.lenD]
    simp only [List.mem_map, List.mem_range]
    constructor
    · rintro ⟨-, o, ho, d, hd, rfl⟩
      refine ⟨q * o + d, ?_, ?_⟩
      · have h1 : q * o ≤ q * (n - 1) := Nat.mul_le_mul_left _ (by omega)
        unfold spans; omega
      · rw [hb.valuation hx hv ho, hx.valuation ho hd, Nat.add_mul (q * o + d)]
        push_cast; ring
    · rintro ⟨k, hk, rfl⟩
      obtain ⟨o, ho, d, hd, rfl⟩ := hx.cell_at hk
      have e : b.valuation o d = a + x.dgrain.months - 1 + ((q * o + d) * x.dgrain.months : Nat) := by
        rw [hb.valuation hx hv ho, hx.valuation ho hd, Nat.add_mul (q * o + d)]
        push_cast; ring
      refine ⟨?_, o, ho, d, hd, e⟩
      rw [← e, hb.valuation hx hv ho, hb.vd]
      exact hx.valuation_last ho hd

theorem Box.devToVal (hx : Grid x a n D q) (hq : Dev.valOffset x.dgrain x.ograin = some q)
    (hb : Box x b (lastDate x a n D q) fl f) (hu : lastDate x a n D q < 12 * 2261) (hfl : fl.1 ≠ some true)
    (hf : ∀ i < x.kdims.length, ∀ o < n, ∀ d < D, (f i o d).NoInf ∧ f i o d ≠ .nan) :
    ∃ s, b.devToVal = .ok s ∧ ValBox x s a n D q fl fun i o k =>
      if q * o ≤ k ∧ k < q * o + D then f i o (k - q * o) else .nan := by
  have hp := months_pos x.dgrain
  have hv := hx.le_last
  have hD := hx.two_ages
  have hn := hx.two_origins
  have hk := hb.knownValuations hx
  obtain ⟨b0, b1, b2, b3⟩ := hb.dims
  have hlen : (Dev.knownValuations b).length = spans n D q := by rw [hk]; simp
  have hcum : ¬ b.isCum = some true := by
    have : b.isCum = fl.1 := by rw [← hb.flags]; rfl
    rw [this]; exact hfl
  have hmem : ∀ {o d}, (o, d) ∈ b.coords → o < n ∧ d < D := by
    intro o d h
    obtain ⟨h1, h2, -⟩ := mem_coords.mp h
    rw [b2, hx.lenO] at h1
    rw [b3, hx.lenD] at h2
    exact ⟨h1, h2⟩
  have hval : b.valDev 1 = _ := valDev_eq (t := b) (sign := 1) (q := q) (nd := spans n D q)
    (by rw [hb.dgrain, hb.ograin]; exact hq) (by rw [b2, hx.lenO]; omega)
    (by
      refine ⟨(1, 0), mem_coords.mpr ⟨by rw [b2, hx.lenO]; omega, by rw [b3, hx.lenD]; omega,
        0, by rw [b0]; exact hx.index_pos, 0, by rw [b1]; omega, ?_⟩, by simp⟩
      rw [hb.cell 0 hx.index_pos 1 (by rw [hx.lenO]; omega) 0 (by rw [hx.lenD]; omega)]
      exact (hf 0 hx.index_pos 1 (by omega) 0 (by omega)).2)
    hlen (fun hc => absurd hc.2 (by decide)) (by
      rintro ⟨o, d⟩ hp
      obtain ⟨h1, h2⟩ := hmem hp
      have h3 : q * o ≤ q * (n - 1) := Nat.mul_le_mul_left _ (by omega)
      have h4 : d + o * q < spans n D q := by rw [Nat.mul_comm o]; unfold spans; omega
      have h5 : ((d + o * q : Nat) : Int) < (spans n D q : Nat) := by exact_mod_cast h4
      push_cast at h5
      exact ⟨by positivity, by simpa using h5⟩)
  have hfull : b.isFull = true := by
    unfold isFull
    rw [List.all_eq_true]
    intro o ho
    rw [List.all_eq_true]
    intro d hd
    rw [List.mem_range, b2, hx.lenO] at ho
    rw [List.mem_range, b3, hx.lenD] at hd
    rw [hb.nanTri hx hv ho, if_neg (not_lt.2 (hx.valuation_last ho hd))]
    simp
  have hult : b.isUltimate = false := by
    rw [Bool.eq_false_iff]
    intro h
    obtain ⟨y, hy, hd⟩ := List.any_eq_true.mp h
    have h3 := of_decide_eq_true hd
    obtain ⟨o, d, ho, hd', e⟩ := mem_valuations.mp hy
    rw [hb.odims, hx.lenO] at ho
    rw [hb.ddims, hx.lenD] at hd'
    rw [hb.valuation hx hv ho] at e
    have := hx.valuation_last ho hd'
    omega
  have hcell : ∀ i < x.kdims.length, ∀ o < n, ∀ k < spans n D q,
      (if 0 ≤ (k : Int) - o * q * 1 ∧ (k : Int) - o * q * 1 < b.values.d3 then
        b.values.get i 0 o ((k : Int) - o * q * 1).toNat else .nan) =
      if q * o ≤ k ∧ k < q * o + D then f i o (k - q * o) else .nan := by
    intro i hi o ho k hk
    have e1 : (o : Int) * q * 1 = (q * o : Nat) := by push_cast; ring
    rw [b3, hx.lenD, e1]
    by_cases h : q * o ≤ k ∧ k < q * o + D
    · rw [if_pos (by omega), if_pos h, ← hb.cell i hi o (by rw [hx.lenO]; exact ho) _ (by rw [hx.lenD]; omega)]
      congr 1
      omega
    · rw [if_neg (by omega), if_neg h]
  refine ⟨{ b with
    ddims := Dev.knownValuations b
    isVal := true
    values := ⟨b.values.d0, b.values.d1, b.values.d2, spans n D q, fun i c o k =>
      if 0 ≤ (k : Int) - o * q * 1 ∧ (k : Int) - o * q * 1 < b.values.d3 then
        b.values.get i c o ((k : Int) - o * q * 1).toNat else .nan⟩ }, ?_, ?_⟩
  · unfold Tri.devToVal
    rw [hb.isVal, hfull, hult]
    simp only [Bool.false_eq_true, if_false, if_true, if_neg hcum, bind, Except.bind, pure, Except.pure]
    rw [hval]
    rfl
  · refine ⟨⟨⟨hb.wf.1, hb.wf.2.1, hb.wf.2.2.1, hlen.symm⟩, ?_, rfl, by omega, hx.period, ?_, ?_, ?_,
      ⟨?_, ?_⟩, ?_, ?_, ?_⟩, hb.kdims, hb.keyLabels, hb.one, hb.odims, hb.ograin, hb.dgrain, hb.flags, ?_⟩
    · intro i hi c hc o ho k hk
      have hi' : i < x.kdims.length := by rw [← b0]; exact hi
      have ho' : o < n := by rw [← hx.lenO, ← b2]; exact ho
      have hc' : c < b.values.d1 := hc
      have : c = 0 := by rw [b1] at hc'; omega
      subst this
      show Num.NoInf (if _ then _ else _)
      rw [hcell i hi' o ho' k hk]
      split_ifs with h
      · exact (hf i hi' o ho' _ (by omega)).1
      · trivial
    · unfold spans; omega
    · show b.odims = _
      rw [hb.odims, hx.odims]
      show _ = (List.range n).map fun o : Nat => a + (o * q * b.dgrain.months : Nat)
      rw [hb.dgrain]
    · show Dev.knownValuations b = (List.range _).map fun k : Nat => a + _ - 1 + (k * b.dgrain.months : Nat)
      rw [hk, hb.dgrain]
    · exact hp
    · show _ ≤ b.dgrain.months
      rw [hb.dgrain]
    · show b.vd = a + _ - 1 + ((spans n D q - 1) * b.dgrain.months : Nat)
      rw [hb.vd, hb.dgrain]
      unfold lastDate
      have e : spans n D q * x.dgrain.months = (spans n D q - 1) * x.dgrain.months + x.dgrain.months := by
        rw [← Nat.succ_mul]
        congr 1
        unfold spans; omega
      rw [e]
      push_cast; ring
    · show b.vd < _
      rw [hb.vd]; exact hu
    · intro i hi c hc o ho k hk hlt
      have hi' : i < x.kdims.length := by rw [← hb.kdims]; exact hi
      have hc' : c < b.vdims.length := hc
      have : c = 0 := by rw [hb.one] at hc'; omega
      subst this
      show (if _ then _ else _) = _
      rw [hcell i hi' o ho k hk, if_neg (by omega)]
    · intro i hi o ho k hk
      exact hcell i hi o ho k hk

end Tri
end CL
