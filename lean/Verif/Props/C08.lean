import Verif.Lemmas.Grain
import Verif.Props.C55

/-! # C08: changing the grain -/

set_option linter.unusedSectionVars false

namespace CL
namespace Tri
variable {K : Type} [Field K] [LinearOrder K] [IsStrictOrderedRing K]

/-- The amounts of the cells of the origins that start in the `gw` months from `G` on, valued in the
`w` months up to `V`. -/
def blockAmt (t : Tri K) (i c : Nat) (G : Int) (gw : Nat) (V : Int) (w : Nat) : K :=
  ∑ o ∈ Finset.range t.odims.length, ∑ d ∈ Finset.range t.ddims.length,
    if G ≤ t.odims.getD o 0 ∧ t.odims.getD o 0 < G + gw ∧ V - w < t.valuation o d ∧
      t.valuation o d ≤ V then (t.values.get i c o d).amt else 0

/-- `u` is `t` with origins of grain `og` from month `A` on and developments of grain `dg`.  A
cumulative amount is the total at the same valuation; an incremental amount is the total of the
amounts valued in the months of its development period. -/
structure CoarseOf (t u : Tri K) (A : Int) (og dg : Grain) : Prop where
  wf : WF u
  finite : Finite u
  kept : u.kdims = t.kdims ∧ u.keyLabels = t.keyLabels ∧ u.vdims = t.vdims ∧ u.vd = t.vd
  flags : u.isVal = t.isVal ∧ u.isCum = t.isCum ∧ u.isPattern = t.isPattern ∧
    u.isAdditive = t.isAdditive
  grains : u.ograin = og ∧ u.dgrain = dg
  /-- the origins follow each other, and every one of them has an old origin -/
  origins : u.odims = (List.range u.odims.length).map fun g : Nat => A + (g * og.months : Nat)
  covers : ∀ x ∈ t.odims, ∃ G ∈ u.odims, G ≤ x ∧ x < G + og.months
  needed : ∀ G ∈ u.odims, ∃ x ∈ t.odims, G ≤ x ∧ x < G + og.months
  /-- the ages are one development period apart, the first one within the first period -/
  ages : ∃ L : Nat, 1 ≤ L ∧ L ≤ dg.months ∧
    u.ddims = (List.range u.ddims.length).map fun k : Nat => ((L + k * dg.months : Nat) : Int)
  valued : ∀ g < u.odims.length, ∀ k < u.ddims.length,
    u.valuation g k = u.odims.getD g 0 + u.ddims.getD k 0 - 1
  /-- every origin is valued at the valuation date -/
  latest : ∀ g < u.odims.length, ∃ k < u.ddims.length, u.valuation g k = t.vd
  cells : ∀ i < t.kdims.length, ∀ c < t.vdims.length, ∀ g < u.odims.length, ∀ k < u.ddims.length,
    u.valuation g k ≤ t.vd → (u.values.get i c g k).amt =
      blockAmt t i c (u.odims.getD g 0) og.months (u.valuation g k)
        (if t.isCum = some true then 1 else dg.months)
  after : ∀ i < t.kdims.length, ∀ c < t.vdims.length, ∀ g < u.odims.length, ∀ k < u.ddims.length,
    t.vd < u.valuation g k → u.values.get i c g k = .nan

/-- The new origins are recognised as periods of the grain `og`: the first one starts in month `A`
and the last old origin in month `last`. -/
def Recognised (og : Grain) (A last : Int) : Prop :=
  match og with
  | .Y => True
  | .S => A + 6 ≤ last
  | .Q => A + 3 ≤ last ∧ (A + 9 ≤ last ∨ A / 12 = last / 12)
  | .M => False

/-- The first new origin. -/
def firstStart (t : Tri K) (og : Grain) (a : Int) : Int :=
  if og = t.ograin then a else periodStart og a

theorem sub_periodStart_lt {og : Grain} (a : Int) (hM : og ≠ .M) :
    a - periodStart og a < og.months := by
  cases og <;> simp only [periodStart, Grain.months]
  · omega
  · omega
  · omega
  · exact absurd rfl hM

theorem valOffset_months {x y : Grain} {q : Nat} (h : Dev.valOffset x y = some q) :
    y.months = q * x.months ∧ 1 ≤ q := by
  cases x <;> cases y <;> simp [Dev.valOffset] at h <;> subst h <;> decide

theorem grain_steps {old og' og dg : Grain} {q : Nat} (hq : Dev.valOffset old og' = some q)
    (ho : og ∈ validGrain og') (hd : dg ∈ validGrain old) (hr : grainRank og ≤ grainRank dg) :
    ∃ q' step q'', Dev.valOffset old og = some q' ∧ Dev.valOffset old dg = some step ∧
      Dev.valOffset dg og = some q'' ∧ q' = step * q'' ∧ q ≤ q' ∧ (og ≠ og' → og ≠ .M) := by
  cases old <;> cases og' <;> simp [Dev.valOffset] at hq <;> subst hq <;>
    cases og <;> simp [validGrain] at ho <;> cases dg <;>
    simp [validGrain, grainRank] at hd hr <;> simp [Dev.valOffset]

theorem getGrain_labels {og : Grain} {A last : Int} {N : Nat} (hA : og ≠ .M → A = periodStart og A)
    (h1 : A + (N * og.months : Nat) ≤ last) (h2 : last < A + ((N + 1) * og.months : Nat))
    (h : Recognised og A last) :
    getGrain ((List.range (N + 1)).map fun g : Nat => A + ((g * og.months : Nat) : Int)) = og := by
  have hmem : ∀ x, x ∈ (List.range (N + 1)).map (fun g : Nat => A + ((g * og.months : Nat) : Int)) ↔
      ∃ g ≤ N, A + ((g * og.months : Nat) : Int) = x := by
    intro x; simp only [List.mem_map, List.mem_range, Nat.lt_succ_iff]
  have hne : (List.range (N + 1)).map (fun g : Nat => A + ((g * og.months : Nat) : Int)) ≠ [] := by
    intro e; have := congrArg List.length e; simp at this
  generalize hl : (List.range (N + 1)).map (fun g : Nat => A + ((g * og.months : Nat) : Int)) = l at *
  have hdvd : ∀ a ∈ l, ∀ b ∈ l, (og.months : Int) ∣ a - b := by
    intro a ha b hb
    obtain ⟨g, -, rfl⟩ := (hmem a).mp ha
    obtain ⟨g', -, rfl⟩ := (hmem b).mp hb
    exact ⟨(g : Int) - g', by push_cast; ring⟩
  cases og with
  | Y => exact C55_annual hne hdvd
  | S =>
    rcases C55_semiannual_iff.mpr hdvd with e | e
    · exfalso
      have h6 : 1 ≤ N := by
        simp only [Recognised] at h
        by_contra hc
        have : N = 0 := by omega
        subst this
        simp only [Grain.months] at h2
        omega
      have := (C55_annual_iff hne).mp e (A + ((1 * 6 : Nat) : Int)) ((hmem _).mpr ⟨1, h6, rfl⟩)
        (A + ((0 * 6 : Nat) : Int)) ((hmem _).mpr ⟨0, by omega, rfl⟩)
      omega
    · exact e
  | Q =>
    simp only [Recognised] at h
    simp only [Grain.months] at h1 h2 hmem
    have hA3 : A % 3 = 0 := by
      have := hA (by decide)
      simp only [periodStart] at this
      omega
    have hN1 : 1 ≤ N := by omega
    have hm0 : A ∈ l := (hmem _).mpr ⟨0, by omega, by simp⟩
    have hm1 : A + 3 ∈ l := (hmem _).mpr ⟨1, hN1, by simp⟩
    rcases C55_quarterly_partial hdvd (by
      intro x hx y hy hxy
      obtain ⟨g, hg, rfl⟩ := (hmem x).mp hx
      obtain ⟨g', hg', rfl⟩ := (hmem y).mp hy
      rcases h.2 with h9 | hyr
      · have hN3 : 3 ≤ N := by omega
        have m2 : A + 6 ∈ l := (hmem _).mpr ⟨2, by omega, by simp⟩
        have m3 : A + 9 ∈ l := (hmem _).mpr ⟨3, by omega, by simp⟩
        rcases (show (A % 12 = (A + ((g * 3 : Nat) : Int)) % 12 + 3) ∨
          ((A + 3) % 12 = (A + ((g * 3 : Nat) : Int)) % 12 + 3) ∨
          ((A + 6) % 12 = (A + ((g * 3 : Nat) : Int)) % 12 + 3) ∨
          ((A + 9) % 12 = (A + ((g * 3 : Nat) : Int)) % 12 + 3) by omega) with e | e | e | e
        · exact ⟨_, hm0, e⟩
        · exact ⟨_, hm1, e⟩
        · exact ⟨_, m2, e⟩
        · exact ⟨_, m3, e⟩
      · refine ⟨A + (((g + 1) * 3 : Nat) : Int), (hmem _).mpr ⟨g + 1, ?_, rfl⟩, ?_⟩
        · have : g < g' := by
            by_contra hc
            omega
          omega
        · omega) with e | e | e
    · have := (C55_annual_iff hne).mp e _ hm1 _ hm0
      omega
    · have := C55_semiannual_iff.mp (Or.inr e) _ hm1 _ hm0
      omega
    · exact e
  | M => exact absurd h (by simp [Recognised])

/-- The first half of `grain`: the origins. -/
def originStage (t : Tri K) (og : Grain) (v : Tri K) : Except Err (Tri K) :=
  if og ≠ t.ograin then v.groupbyOriginSum (coarseOrigins og t.odims) >>= prependZeros t.dgrain
  else pure v

theorem originStage_eq {t v : Tri K} {a : Int} {n D q p q' : Nat} {og : Grain}
    (h : ValGrid v a n D q v.dgrain.months) (hD : 2 ≤ D)
    (e1 : v.dgrain = t.dgrain) (e2 : v.ograin = t.ograin) (e3 : v.odims = t.odims)
    (hq : og = t.ograin → q' = q)
    (hp : a = firstStart t og a + (p * t.dgrain.months : Nat)) (hpD : p ≤ D)
    (hW : og.months = q' * t.dgrain.months) (hsW : q ≤ q')
    (hog : og ≠ t.ograin → og ≠ .M ∧ (t.dgrain = .M ∨ (t.dgrain = .Q ∧ p = 0)) ∧
      Recognised og (periodStart og a) (a + ((n - 1) * (q * t.dgrain.months) : Nat))) :
    ∃ u, originStage t og v = .ok u ∧
      ValGrid u (firstStart t og a)
        ((p * t.dgrain.months + (n - 1) * (q * t.dgrain.months)) / og.months + 1) (D + p) q'
        t.dgrain.months ∧
      u.dgrain = t.dgrain ∧ u.ograin = og ∧ Kept u v ∧
      ∀ i < v.kdims.length, ∀ c < v.vdims.length,
        ∀ g < (p * t.dgrain.months + (n - 1) * (q * t.dgrain.months)) / og.months + 1, ∀ k < D + p,
        (u.values.get i c g k).amt = ∑ o ∈ Finset.range n,
          if (p * t.dgrain.months + o * (q * t.dgrain.months)) / og.months = g ∧ p ≤ k then
            (v.values.get i c o (k - p)).amt else 0 := by
  have hn := h.origins
  have hm := months_pos t.dgrain
  have hWp := months_pos og
  by_cases ho : og = t.ograin
  · have hq' := hq ho
    subst hq'
    have hp0 : p = 0 := by
      unfold firstStart at hp
      rw [if_pos ho] at hp
      have : p * t.dgrain.months = 0 := by omega
      rcases Nat.mul_eq_zero.mp this with e | e
      · exact e
      · omega
    subst hp0
    have hA : firstStart t og a = a := by unfold firstStart; rw [if_pos ho]
    have hidx : ∀ o : Nat, (0 * t.dgrain.months + o * (q' * t.dgrain.months)) / og.months = o := by
      intro o
      rw [← hW, Nat.zero_mul, Nat.zero_add]
      exact Nat.mul_div_cancel _ hWp
    refine ⟨v, ?_, ?_, e1, e2.trans ho.symm, ⟨rfl, rfl, rfl, rfl, rfl, rfl, rfl⟩, ?_⟩
    · unfold originStage; rw [if_neg (not_not.mpr ho)]; rfl
    · rw [hidx, hA, Nat.sub_add_cancel hn, ← e1]
      exact h
    · intro i _ c _ g hg k _
      rw [hidx, Nat.sub_add_cancel hn] at hg
      simp only [hidx, Nat.zero_le, and_true, Nat.sub_zero]
      rw [Finset.sum_ite_eq' (Finset.range n) g, if_pos (Finset.mem_range.mpr hg)]
  · obtain ⟨hM, hdp, hrec⟩ := hog ho
    have hA : firstStart t og a = periodStart og a := by unfold firstStart; rw [if_neg ho]
    rw [hA] at hp ⊢
    have hpp : periodStart og a = periodStart og (periodStart og a) := by
      cases og <;> simp [periodStart] <;> omega
    have hrW : p * t.dgrain.months < og.months := by
      cases og <;> simp only [periodStart, Grain.months] at hp hM ⊢
      · omega
      · omega
      · omega
      · exact absurd rfl hM
    have hg := getGrain_labels (og := og) (A := periodStart og a)
      (last := a + ((n - 1) * (q * t.dgrain.months) : Nat))
      (N := (p * t.dgrain.months + (n - 1) * (q * t.dgrain.months)) / og.months)
      (fun _ => hpp) (by
        have := Nat.div_mul_le_self (p * t.dgrain.months + (n - 1) * (q * t.dgrain.months)) og.months
        omega) (by
        have := Nat.lt_div_mul_add (a := p * t.dgrain.months + (n - 1) * (q * t.dgrain.months)) hWp
        rw [Nat.add_mul, Nat.one_mul]
        omega) hrec
    have := h.coarsenOrigins_eq hD hM (r := p * t.dgrain.months) (p := p) (q' := q') hp hrW
      (by rw [e1]) (by rw [e1]; exact hdp) hpD (by rw [e1]; exact hW) hsW (by rw [e1]; exact hg)
    rw [e1, e3] at this
    obtain ⟨u, hu, h1, h2, h3, h4, h5⟩ := this
    refine ⟨u, ?_, h1, h2, h3, h4, h5⟩
    unfold originStage; rw [if_pos ho]; exact hu

theorem coarsenDev_all {g : Tri K} {A : Int} {n C q step q' : Nat} {new : Grain}
    (h : ValGrid g A n C q g.dgrain.months) (hC : 2 ≤ C)
    (hs : Dev.valOffset g.dgrain new = some step) (hq : q = step * q') :
    ∃ u, coarsenDev g.dgrain new g = .ok u ∧
      ValGrid u A n ((C - 1) / step + 1) q' (((C - 1) % step + 1) * g.dgrain.months) ∧
      u.dgrain = new ∧ u.ograin = g.ograin ∧ Kept u g ∧
      ∀ i < g.kdims.length, ∀ c < g.vdims.length, ∀ o < n, ∀ j < (C - 1) / step + 1,
        (u.values.get i c o j).amt = ∑ k ∈ Finset.range C,
          if (g.isCum = some true → k = (C - 1) % step + j * step) ∧
            (C - 1) % step + j * step < k + step ∧ k ≤ (C - 1) % step + j * step then
            (g.values.get i c o k).amt else 0 := by
  obtain ⟨hm, h1⟩ := valOffset_months hs
  by_cases hne : g.dgrain = new
  · have hstep : step = 1 := by
      rw [← hne] at hm
      have := months_pos g.dgrain
      have h2 : 1 * g.dgrain.months = step * g.dgrain.months := by omega
      exact (Nat.eq_of_mul_eq_mul_right this h2).symm
    subst hstep
    rw [Nat.one_mul] at hq
    subst hq
    refine ⟨g, ?_, ?_, hne, rfl, ⟨rfl, rfl, rfl, rfl, rfl, rfl, rfl⟩, ?_⟩
    · unfold coarsenDev; rw [if_neg (by simp [hne])]
    · rw [Nat.div_one, Nat.mod_one, Nat.sub_add_cancel (by omega), Nat.zero_add, Nat.one_mul]
      exact h
    · intro i _ c _ o _ j hj
      rw [Nat.div_one] at hj
      rw [Finset.sum_eq_single j]
      · rw [if_pos]
        rw [Nat.mod_one]
        exact ⟨fun _ => by omega, by omega, by omega⟩
      · intro k _ hk
        rw [if_neg]
        rw [Nat.mod_one]
        rintro ⟨-, h1, h2⟩
        omega
      · intro hj'
        exact absurd (Finset.mem_range.mpr (by omega)) hj'
  · exact h.coarsenDev_eq hC hne hs h1 hq hm

/-- The amounts of a block of the grid, counted in development periods. -/
theorem blockAmt_grid {t : Tri K} {a A : Int} {n D q p W step e : Nat} (h : Grid t a n D q)
    (hp : a = A + (p * t.dgrain.months : Nat)) (hW : 1 ≤ W) (hst : 1 ≤ step)
    {i c g : Nat} (hi : i < t.kdims.length) (hc : c < t.vdims.length) :
    blockAmt t i c (A + (g * W : Nat)) W (A + ((e + 1) * t.dgrain.months : Nat) - 1)
        (if t.isCum = some true then 1 else step * t.dgrain.months) =
      ∑ k ∈ Finset.range (D + p), if (t.isCum = some true → k = e) ∧ e < k + step ∧ k ≤ e then
        ∑ o ∈ Finset.range n, if (p * t.dgrain.months + o * (q * t.dgrain.months)) / W = g ∧ p ≤ k then
          (if q * o ≤ k - p then t.values.get i c o (k - p - q * o) else .nan).amt else 0
      else 0 := by
  have hm := months_pos t.dgrain
  have hpush : ∀ k, (if (t.isCum = some true → k = e) ∧ e < k + step ∧ k ≤ e then
        ∑ o ∈ Finset.range n, if (p * t.dgrain.months + o * (q * t.dgrain.months)) / W = g ∧ p ≤ k then
          (if q * o ≤ k - p then t.values.get i c o (k - p - q * o) else .nan).amt else 0
      else 0) = ∑ o ∈ Finset.range n, if (t.isCum = some true → k = e) ∧ e < k + step ∧ k ≤ e then
        (if (p * t.dgrain.months + o * (q * t.dgrain.months)) / W = g ∧ p ≤ k then
          (if q * o ≤ k - p then t.values.get i c o (k - p - q * o) else .nan).amt else 0) else 0 := by
    intro k
    split_ifs <;> simp
  simp only [hpush]
  rw [Finset.sum_comm]
  unfold blockAmt
  rw [h.lenO, h.lenD]
  apply Finset.sum_congr rfl
  intro o ho
  have ho : o < n := Finset.mem_range.mp ho
  have hblock : (A + ((g * W : Nat) : Int) ≤ t.odims.getD o 0 ∧
      t.odims.getD o 0 < A + ((g * W : Nat) : Int) + (W : Int)) ↔
      (p * t.dgrain.months + o * (q * t.dgrain.months)) / W = g := by
    rw [h.getO ho, hp, Nat.mul_assoc o q, Nat.div_eq_iff (by omega)]
    constructor
    · intro hh; omega
    · intro hh; omega
  by_cases hb : (p * t.dgrain.months + o * (q * t.dgrain.months)) / W = g
  swap
  · rw [Finset.sum_eq_zero, Finset.sum_eq_zero]
    · intro k _
      have : ¬((p * t.dgrain.months + o * (q * t.dgrain.months)) / W = g ∧ p ≤ k) := fun hh => hb hh.1
      simp only [this, if_false, ite_self]
    · intro d _
      rw [if_neg]
      rintro ⟨h1, h2, -⟩
      exact hb (hblock.mp ⟨h1, h2⟩)
  obtain ⟨b1, b2⟩ := hblock.mpr hb
  -- reindex
  have hval : ∀ d < D, (A + (((e + 1) * t.dgrain.months : Nat) : Int) - 1 -
        ((if t.isCum = some true then 1 else step * t.dgrain.months : Nat) : Int) < t.valuation o d ∧
      t.valuation o d ≤ A + (((e + 1) * t.dgrain.months : Nat) : Int) - 1) ↔
      ((t.isCum = some true → p + q * o + d = e) ∧ e < p + q * o + d + step ∧ p + q * o + d ≤ e) := by
    intro d hd
    rw [h.valuation ho hd, hp]
    have e1 : A + ((p * t.dgrain.months : Nat) : Int) + (((q * o + d + 1) * t.dgrain.months : Nat) : Int) - 1
        = A + (((p + q * o + d + 1) * t.dgrain.months : Nat) : Int) - 1 := by push_cast; ring
    rw [e1]
    have hle : ∀ x y : Nat, x * t.dgrain.months ≤ y * t.dgrain.months ↔ x ≤ y := fun x y =>
      Nat.mul_le_mul_right_iff hm
    have hlt : ∀ x y : Nat, x * t.dgrain.months < y * t.dgrain.months ↔ x < y := fun x y =>
      Nat.mul_lt_mul_right hm
    by_cases hcum : t.isCum = some true
    · rw [if_pos hcum]
      have k1 := hle (p + q * o + d + 1) (e + 1)
      have k2 := hle (e + 1) (p + q * o + d + 1)
      constructor
      · intro hh
        have h1 := k1.mp (by omega)
        have h2 := k2.mp (by omega)
        exact ⟨fun _ => by omega, by omega, by omega⟩
      · rintro ⟨hh, -, -⟩
        have := hh hcum
        rw [this]
        constructor <;> push_cast <;> omega
    · rw [if_neg hcum]
      have k1 := hle (p + q * o + d + 1) (e + 1)
      have k2 := hlt (e + 1) (p + q * o + d + 1 + step)
      rw [Nat.add_mul _ step] at k2
      constructor
      · intro hh
        have h1 := k1.mp (by omega)
        have h2 := k2.mp (by omega)
        exact ⟨fun hh => absurd hh hcum, by omega, by omega⟩
      · rintro ⟨-, h1, h2⟩
        have h1 := k1.mpr (by omega)
        have h2 := k2.mpr (by omega)
        constructor <;> omega
  have hl : ∑ d ∈ Finset.range D, (if A + ((g * W : Nat) : Int) ≤ t.odims.getD o 0 ∧
        t.odims.getD o 0 < A + ((g * W : Nat) : Int) + (W : Int) ∧
        A + (((e + 1) * t.dgrain.months : Nat) : Int) - 1 -
          ((if t.isCum = some true then 1 else step * t.dgrain.months : Nat) : Int) < t.valuation o d ∧
        t.valuation o d ≤ A + (((e + 1) * t.dgrain.months : Nat) : Int) - 1 then
        (t.values.get i c o d).amt else 0) =
      ∑ d ∈ Finset.range D, if (t.isCum = some true → p + q * o + d = e) ∧
        e < p + q * o + d + step ∧ p + q * o + d ≤ e then (t.values.get i c o d).amt else 0 := by
    apply Finset.sum_congr rfl
    intro d hd
    have hv := hval d (Finset.mem_range.mp hd)
    by_cases hx : (t.isCum = some true → p + q * o + d = e) ∧ e < p + q * o + d + step ∧ p + q * o + d ≤ e
    · rw [if_pos hx, if_pos ⟨b1, b2, hv.mpr hx⟩]
    · rw [if_neg hx, if_neg (fun hh => hx (hv.mp hh.2.2))]
  refine hl.trans ?_
  -- the columns before the origin contribute nothing, those after the valuation date neither
  have hsplit : ∑ d ∈ Finset.range D, (if (t.isCum = some true → p + q * o + d = e) ∧
        e < p + q * o + d + step ∧ p + q * o + d ≤ e then (t.values.get i c o d).amt else 0) =
      ∑ d ∈ Finset.range (D - q * o), (if (t.isCum = some true → p + q * o + d = e) ∧
        e < p + q * o + d + step ∧ p + q * o + d ≤ e then (t.values.get i c o d).amt else 0) := by
    symm
    apply Finset.sum_subset
    · intro d hd
      rw [Finset.mem_range] at hd ⊢
      omega
    · intro d hd hd'
      rw [Finset.mem_range] at hd hd'
      rw [h.known i hi c hc o ho d hd (by omega)]
      simp [Num.amt]
  rw [hsplit]
  have hqo : q * o < D := by
    have := h.recent
    have : q * o ≤ q * (n - 1) := Nat.mul_le_mul_left _ (by omega)
    omega
  rw [show D + p = (p + q * o) + (D - q * o) by omega, Finset.sum_range_add, Finset.sum_eq_zero
    (s := Finset.range (p + q * o)), zero_add]
  · apply Finset.sum_congr rfl
    intro d _
    rw [if_pos (show (p * t.dgrain.months + o * (q * t.dgrain.months)) / W = g ∧ p ≤ p + q * o + d from
      ⟨hb, by omega⟩), if_pos (show q * o ≤ p + q * o + d - p by omega)]
    rw [show p + q * o + d - p - q * o = d by omega]
  · intro k hk
    rw [Finset.mem_range] at hk
    split_ifs with h1 h2 h3
    · omega
    · rfl
    · rfl
    · rfl

theorem grainTo_eq (t : Tri K) (og dg : Grain) (h1 : og ∈ validGrain t.ograin)
    (h2 : dg ∈ validGrain t.dgrain) (h3 : t.isCum ≠ none ∨ dg = t.dgrain)
    (h4 : grainRank og ≤ grainRank dg) (hv : t.isVal = false) : t.grainTo og dg =
      (t.devToVal >>= originStage t og) >>= coarsenDev t.dgrain dg >>= valToDev := by
  unfold grainTo originStage
  rw [if_neg (by simp [h1, h2]), if_neg (by
    rintro ⟨e1, e2, -⟩
    rcases h3 with h | h
    · exact h e1
    · exact e2 h.symm), if_neg (by omega), hv]
  simp only [Bool.false_eq_true, if_false]
  rcases e : t.devToVal with x | x
  · rfl
  · by_cases ho : og ≠ t.ograin
    · simp only [bind, Except.bind, if_pos ho]
      rcases e' : x.groupbyOriginSum (coarseOrigins og t.odims) with y | y
      · rfl
      · simp only
        rcases e'' : prependZeros t.dgrain y with z | z <;> rfl
    · simp only [bind, Except.bind, if_neg ho, pure, Except.pure]

/-- The letters of the grains in the argument. -/
def letter : Grain → Char
  | .Y => 'Y' | .S => 'S' | .Q => 'Q' | .M => 'M'

theorem grain_letters (t : Tri K) (og dg : Grain) :
    t.grain ['O', letter og, 'D', letter dg] = t.grainTo og dg := by
  cases og <;> cases dg <;> rfl

/-- **C08, partial: a regular grid whose new origins are recognised, and for new origins months, or
quarters that need no earlier column.** -/
theorem _root_.CL.C08_grain_partial {t : Tri K} {a : Int} {n D q : Nat} {og dg : Grain}
    (h : Grid t a n D q) (hq : Dev.valOffset t.dgrain t.ograin = some q) (hl : Later t)
    (he : t.vd < 12 * 2261) (hsh : t.vd + 1 - firstStart t og a < 9999)
    (ho : og ∈ validGrain t.ograin) (hd : dg ∈ validGrain t.dgrain)
    (hr : grainRank og ≤ grainRank dg) (hc : t.isCum ≠ none ∨ dg = t.dgrain)
    (hnew : og ≠ t.ograin →
      ((t.dgrain = .M ∧ a - periodStart og a ≤ D) ∨ (t.dgrain = .Q ∧ a = periodStart og a)) ∧
      Recognised og (periodStart og a) (t.odims.getD (n - 1) 0))
    (hlater : t.odims.getD (n - 1) 0 < firstStart t og a + og.months ∨
      ∃ i < t.kdims.length, ∃ c < t.vdims.length, ∃ g j : Nat, 1 ≤ g ∧
        blockAmt t i c (firstStart t og a + (g * og.months : Nat)) og.months
          (t.vd - (j * dg.months : Nat)) (if t.isCum = some true then 1 else dg.months) ≠ 0) :
    ∃ u, t.grain ['O', letter og, 'D', letter dg] = .ok u ∧
      CoarseOf t u (firstStart t og a) og dg := by
  rw [grain_letters]
  have hm := months_pos t.dgrain
  have hWp := months_pos og
  have hm' := months_pos dg
  have hD := h.two_ages
  have hn2 := h.two_origins
  obtain ⟨q', step, q'', o1, o2, o3, hq', hqq, hnM⟩ := grain_steps hq ho hd hr
  obtain ⟨hW, -⟩ := valOffset_months o1
  obtain ⟨hms, hs1⟩ := valOffset_months o2
  obtain ⟨hW', -⟩ := valOffset_months o3
  have hlast : t.odims.getD (n - 1) 0 = a + ((n - 1) * (q * t.dgrain.months) : Nat) := by
    rw [h.getO (by omega), Nat.mul_assoc]
  -- the number of earlier columns
  obtain ⟨p, hp, hpD, hpc⟩ : ∃ p : Nat, a = firstStart t og a + (p * t.dgrain.months : Nat) ∧ p ≤ D ∧
      (og ≠ t.ograin → t.dgrain = .M ∨ (t.dgrain = .Q ∧ p = 0)) := by
    by_cases hog : og = t.ograin
    · exact ⟨0, by unfold firstStart; rw [if_pos hog]; simp, by omega, fun h => absurd hog h⟩
    · unfold firstStart
      rw [if_neg hog]
      rcases (hnew hog).1 with ⟨e, hle⟩ | ⟨e, hle⟩
      · have h0 : 0 ≤ a - periodStart og a := by
          cases og <;> simp only [periodStart] <;> omega
        refine ⟨(a - periodStart og a).toNat, ?_, by omega, fun _ => Or.inl e⟩
        rw [e]
        simp only [Grain.months]
        omega
      · exact ⟨0, by simp; exact hle, by omega, fun _ => Or.inr ⟨e, rfl⟩⟩
  generalize hA : firstStart t og a = A at *
  obtain ⟨hv, hvc⟩ := h.byVal_grid he
  obtain ⟨u3, hu3, g3, d3, og3, kept3, cell3⟩ := originStage_eq (t := t) (og := og) (q' := q') (p := p)
    (v := Grid.byVal t D q) hv hD rfl rfl rfl
    (fun e => by rw [← e, o1] at hq; exact Option.some.inj hq) (by rw [hA]; exact hp) hpD hW hqq
    (fun hne => ⟨hnM hne, hpc hne, by rw [← hlast]; exact (hnew hne).2⟩)
  rw [hA] at g3
  generalize hN : (p * t.dgrain.months + (n - 1) * (q * t.dgrain.months)) / og.months + 1 = n' at *
  have hn' : 1 ≤ n' := g3.origins
  rw [← d3] at g3
  obtain ⟨u4, hu4, g4, d4, og4, kept4, cell4⟩ := coarsenDev_all g3 (by omega) (by rw [d3]; exact o2) hq'
  rw [d3] at hu4 g4
  generalize hC' : (D + p - 1) / step + 1 = C' at *
  generalize hd0 : (D + p - 1) % step = d0 at *
  have kept := kept4.trans kept3
  obtain ⟨k1, k2, k3, k4, k5, k6, k7⟩ := kept
  have k1' : u4.kdims = t.kdims := k1
  have k2' : u4.keyLabels = t.keyLabels := k2
  have k3' : u4.vdims = t.vdims := k3
  have k4' : u4.vd = t.vd := k4
  have k5' : u4.isCum = t.isCum := k5
  have k6' : u4.isPattern = t.isPattern := k6
  have k7' : u4.isAdditive = t.isAdditive := k7
  have kd3 : u3.kdims = t.kdims := kept3.1
  have kv3 : u3.vdims = t.vdims := kept3.2.2.1
  have kc3 : u3.isCum = t.isCum := kept3.2.2.2.2.1
  -- the amounts
  have hcells : ∀ i < t.kdims.length, ∀ c < t.vdims.length, ∀ g < n', ∀ j < C',
      (u4.values.get i c g j).amt = blockAmt t i c (A + (g * og.months : Nat)) og.months
        (A + ((d0 + 1) * t.dgrain.months : Nat) - 1 + (j * dg.months : Nat))
        (if t.isCum = some true then 1 else dg.months) := by
    intro i hi c hc g hg j hj
    have hV : A + (((d0 + 1) * t.dgrain.months : Nat) : Int) - 1 + ((j * dg.months : Nat) : Int) =
        A + (((d0 + j * step + 1) * t.dgrain.months : Nat) : Int) - 1 := by
      rw [hms]; push_cast; ring
    rw [hV, hms, blockAmt_grid h hp hWp hs1 hi hc, cell4 i (by rw [kd3]; exact hi) c
      (by rw [kv3]; exact hc) g hg j hj]
    apply Finset.sum_congr rfl
    intro k hk
    rw [kc3]
    split_ifs with hcond
    · rw [cell3 i hi c hc g hg k (Finset.mem_range.mp hk)]
      apply Finset.sum_congr rfl
      intro o ho
      split_ifs with h1 h2
      · rw [hvc i c o (Finset.mem_range.mp ho) (k - p) (by have := Finset.mem_range.mp hk; omega),
          if_pos h2]
      · rw [hvc i c o (Finset.mem_range.mp ho) (k - p) (by have := Finset.mem_range.mp hk; omega),
          if_neg h2]
      · rfl
    · rfl
  -- the valuations
  have hvd := g4.vd
  rw [k4', d4] at hvd
  have hlag := g4.lag
  rw [d4] at hlag
  have hrec4 := g4.recent
  have hlater4 : n' = 1 ∨ Later u4 := by
    have hlt : ∀ o < n, A ≤ t.odims.getD o 0 ∧ t.odims.getD o 0 < A + ((n' * og.months : Nat) : Int) := by
      intro o ho
      rw [h.getO ho, hp]
      have h1 : o * q * t.dgrain.months ≤ (n - 1) * (q * t.dgrain.months) := by
        rw [Nat.mul_assoc]; exact Nat.mul_le_mul_right _ (by omega)
      have h2 := Nat.lt_div_mul_add (a := p * t.dgrain.months + (n - 1) * (q * t.dgrain.months)) hWp
      have h3 : (p * t.dgrain.months + (n - 1) * (q * t.dgrain.months)) / og.months * og.months +
          og.months = n' * og.months := by rw [← hN]; ring
      omega
    rcases hlater with e | ⟨i, hi, c, hc, g, j, hg, hne⟩
    · left
      rw [← hN, hlast, hp] at *
      have : p * t.dgrain.months + (n - 1) * (q * t.dgrain.months) < og.months := by omega
      rw [Nat.div_eq_of_lt this]
    · right
      have hgn : g < n' := by
        by_contra hcon
        apply hne
        unfold blockAmt
        apply Finset.sum_eq_zero
        intro o ho
        apply Finset.sum_eq_zero
        intro d _
        rw [if_neg]
        rintro ⟨h1, -⟩
        have := (hlt o (by rw [← h.lenO]; exact Finset.mem_range.mp ho)).2
        have : n' * og.months ≤ g * og.months := Nat.mul_le_mul_right _ (by omega)
        omega
      have hjc : j < C' := by
        by_contra hcon
        apply hne
        unfold blockAmt
        apply Finset.sum_eq_zero
        intro o ho
        apply Finset.sum_eq_zero
        intro d hd
        rw [if_neg]
        rintro ⟨-, -, -, h1⟩
        have ho' : o < n := by rw [← h.lenO]; exact Finset.mem_range.mp ho
        have hd' : d < D := by rw [← h.lenD]; exact Finset.mem_range.mp hd
        rw [h.valuation ho' hd', hvd, hp] at h1
        have h2 : C' * dg.months ≤ j * dg.months := Nat.mul_le_mul_right _ (by omega)
        have h3 : (C' - 1) * dg.months + dg.months = C' * dg.months := by
          rw [← Nat.succ_mul]; congr 1; omega
        have h4 : t.dgrain.months ≤ (q * o + d + 1) * t.dgrain.months :=
          Nat.le_mul_of_pos_left _ (by omega)
        omega
      have := hcells i hi c hc g hgn (C' - 1 - j) (by omega)
      refine ⟨i, by rw [k1']; exact hi, c, by rw [k3']; exact hc, g, by rw [g4.lenO]; exact hgn,
        C' - 1 - j, by rw [g4.lenD]; omega, by omega, ?_⟩
      intro e
      rw [e] at this
      apply hne
      have hV : t.vd - ((j * dg.months : Nat) : Int) = A + (((d0 + 1) * t.dgrain.months : Nat) : Int) - 1 +
          (((C' - 1 - j) * dg.months : Nat) : Int) := by
        rw [hvd]
        have : (C' - 1) * dg.months = (C' - 1 - j) * dg.months + j * dg.months := by
          rw [← Nat.add_mul]; congr 1; omega
        rw [this]; push_cast; ring
      rw [hV, ← this]
      rfl
  obtain ⟨f, hf, hfc⟩ := g4.valToDev_eq (by rw [d4, og4, og3]; exact o3) hlater4
  refine ⟨ValGrid.byAge u4 C' ((d0 + 1) * t.dgrain.months) f, ?_, ?_⟩
  · rw [grainTo_eq t og dg ho hd hc hr h.isVal, h.devToVal_eq hq hl]
    simp only [bind, Except.bind] at hu3 hu4 ⊢
    rw [hu3]
    simp only [hu4]
    exact hf
  · -- the new triangle
    have hod : (ValGrid.byAge u4 C' ((d0 + 1) * t.dgrain.months) f).odims =
        (List.range n').map fun g : Nat => A + ((g * og.months : Nat) : Int) := by
      show u4.odims = _
      rw [g4.odims, d4]
      apply List.map_congr_left
      intro g _
      rw [hW', Nat.mul_assoc]
    have hdd : (ValGrid.byAge u4 C' ((d0 + 1) * t.dgrain.months) f).ddims =
        (List.range C').map fun k : Nat => (((d0 + 1) * t.dgrain.months + k * dg.months : Nat) : Int) := by
      show (List.range C').map (fun k : Nat => (k : Int) * u4.dgrain.months + _) = _
      rw [d4]
      apply List.map_congr_left
      intro k _
      push_cast; ring
    have hlo : (ValGrid.byAge u4 C' ((d0 + 1) * t.dgrain.months) f).odims.length = n' := by
      rw [hod]; simp
    have hld : (ValGrid.byAge u4 C' ((d0 + 1) * t.dgrain.months) f).ddims.length = C' := by
      rw [hdd]; simp
    have hstart : ∀ g < n', A + ((g * og.months : Nat) : Int) ≤ t.vd := by
      intro g hg
      have h1 : g * og.months ≤ (C' - 1) * dg.months := by
        rw [hW', ← Nat.mul_assoc]
        apply Nat.mul_le_mul_right
        have : q'' * g ≤ q'' * (n' - 1) := Nat.mul_le_mul_left _ (by omega)
        rw [Nat.mul_comm]
        omega
      omega
    have hval : ∀ g < n', ∀ k < C',
        (ValGrid.byAge u4 C' ((d0 + 1) * t.dgrain.months) f).valuation g k =
          A + (((d0 + 1) * t.dgrain.months : Nat) : Int) - 1 + (((q'' * g + k) * dg.months : Nat) : Int) := by
      intro g hg k hk
      have e1 : (ValGrid.byAge u4 C' ((d0 + 1) * t.dgrain.months) f).odims.getD g 0 =
          A + ((g * og.months : Nat) : Int) := by
        rw [hod, List.getD_eq_getElem?_getD]; simp [hg]
      have e2 : (ValGrid.byAge u4 C' ((d0 + 1) * t.dgrain.months) f).ddims.getD k 0 =
          (((d0 + 1) * t.dgrain.months + k * dg.months : Nat) : Int) := by
        rw [hdd, List.getD_eq_getElem?_getD]; simp [hk]
      unfold Tri.valuation valuationOf
      rw [show (ValGrid.byAge u4 C' ((d0 + 1) * t.dgrain.months) f).isVal = false from rfl]
      simp only [Bool.false_eq_true, if_false]
      rw [if_neg, e1, e2, show (ValGrid.byAge u4 C' ((d0 + 1) * t.dgrain.months) f).vd = t.vd from k4',
        min_eq_left (hstart g hg), hW']
      · push_cast; ring
      · rintro ⟨e, -⟩
        have hmem := List.mem_of_getLast? e
        rw [hdd] at hmem
        obtain ⟨x, hx, e⟩ := List.mem_map.mp hmem
        have hx : x < C' := List.mem_range.mp hx
        have : x * dg.months ≤ (C' - 1) * dg.months := Nat.mul_le_mul_right _ (by omega)
        omega
    have hgO : ∀ g < n', (ValGrid.byAge u4 C' ((d0 + 1) * t.dgrain.months) f).odims.getD g 0 =
          A + ((g * og.months : Nat) : Int) := by
      intro g hg
      rw [hod, List.getD_eq_getElem?_getD]; simp [hg]
    have hle : ∀ g k : Nat, A + (((d0 + 1) * t.dgrain.months : Nat) : Int) - 1 +
        (((q'' * g + k) * dg.months : Nat) : Int) ≤ t.vd ↔ q'' * g + k < C' := by
      intro g k
      rw [hvd]
      have hC1 : 1 ≤ C' := g4.columns
      have : (q'' * g + k) * dg.months ≤ (C' - 1) * dg.months ↔ q'' * g + k ≤ C' - 1 :=
        Nat.mul_le_mul_right_iff hm'
      constructor
      · intro hh
        have := this.mp (by omega)
        omega
      · intro hh
        have := this.mpr (by omega)
        omega
    have hidx : ∀ o < n, (p * t.dgrain.months + o * (q * t.dgrain.months)) / og.months < n' := by
      intro o ho
      rw [← hN, Nat.lt_succ_iff]
      apply Nat.div_le_div_right
      have : o * (q * t.dgrain.months) ≤ (n - 1) * (q * t.dgrain.months) :=
        Nat.mul_le_mul_right _ (by omega)
      omega
    have hin : ∀ o < n, ∀ g, (p * t.dgrain.months + o * (q * t.dgrain.months)) / og.months = g →
        A + ((g * og.months : Nat) : Int) ≤ t.odims.getD o 0 ∧
          t.odims.getD o 0 < A + ((g * og.months : Nat) : Int) + (og.months : Int) := by
      intro o ho g e
      rw [h.getO ho, hp, Nat.mul_assoc o q]
      rw [Nat.div_eq_iff (by omega)] at e
      omega
    refine ⟨⟨?_, ?_, ?_, ?_⟩, ?_, ⟨k1', k2', k3', k4'⟩, ⟨?_, k5', k6', k7'⟩, ⟨og4.trans og3, d4⟩,
      ?_, ?_, ?_, ⟨_, hlag.1, hlag.2, ?_⟩, ?_, ?_, ?_, ?_⟩
    · exact g4.wf.1
    · exact g4.wf.2.1
    · exact g4.wf.2.2.1
    · rw [hld]; rfl
    · intro i hi c hc g hg k hk
      have hg' : g < n' := by
        have : g < u4.values.d2 := hg
        rwa [g4.wf.2.2.1, g4.lenO] at this
      show Num.NoInf (f i c g k)
      rw [hfc i c g k hg']
      split_ifs with hlt
      · exact g4.finite i hi c hc g hg _ (by rw [g4.wf.2.2.2, g4.lenD]; exact hlt)
      · trivial
    · rw [h.isVal]; rfl
    · rw [hlo]; exact hod
    · intro x hx
      obtain ⟨o, ho, e⟩ := List.getElem_of_mem hx
      have ho' : o < n := by rw [← h.lenO]; exact ho
      have := hin o ho' _ rfl
      rw [List.getD_eq_getElem _ _ ho, e] at this
      refine ⟨_, ?_, this⟩
      rw [hod]
      exact List.mem_map.mpr ⟨_, List.mem_range.mpr (hidx o ho'), rfl⟩
    · intro G hG
      rw [hod] at hG
      obtain ⟨g, hg, rfl⟩ := List.mem_map.mp hG
      have hrW : p * t.dgrain.months < og.months := by
        by_cases hog : og = t.ograin
        · unfold firstStart at hA
          rw [if_pos hog] at hA
          omega
        · unfold firstStart at hA
          rw [if_neg hog] at hA
          have hx := sub_periodStart_lt a (hnM hog)
          rw [hA] at hx
          omega
      obtain ⟨o, ho, e⟩ := exists_group (s := q * t.dgrain.months) hrW
        (by rw [hW]; exact Nat.mul_le_mul_right _ hqq) (n - 1) g
        (by have := List.mem_range.mp hg; omega)
      have ho' : o < n := by omega
      have := hin o ho' g e
      refine ⟨_, ?_, this⟩
      rw [List.getD_eq_getElem _ _ (by rw [h.lenO]; exact ho')]
      exact List.getElem_mem _
    · rw [hld]; exact hdd
    · intro g hg k hk
      rw [hlo] at hg
      rw [hld] at hk
      rw [hval g hg k hk, hgO g hg, hdd, List.getD_eq_getElem _ _ (by simpa using hk), List.getElem_map,
        List.getElem_range, hW']
      push_cast; ring
    · intro g hg
      rw [hlo] at hg
      have hq2 : q'' * g ≤ q'' * (n' - 1) := Nat.mul_le_mul_left _ (by omega)
      refine ⟨C' - 1 - q'' * g, by rw [hld]; omega, ?_⟩
      rw [hval g hg _ (by omega), hvd, show q'' * g + (C' - 1 - q'' * g) = C' - 1 by omega]
    · intro i hi c hc g hg k hk hv
      rw [hlo] at hg
      rw [hld] at hk
      rw [hval g hg k hk] at hv ⊢
      have hlt := (hle g k).mp hv
      rw [hgO g hg, ← hcells i hi c hc g hg _ hlt]
      show (f i c g k).amt = _
      rw [hfc i c g k hg, if_pos hlt]
    · intro i hi c hc g hg k hk hv
      rw [hlo] at hg
      rw [hld] at hk
      rw [hval g hg k hk] at hv
      show f i c g k = _
      rw [hfc i c g k hg, if_neg]
      intro hlt
      have := (hle g k).mpr hlt
      omega

/-- **C08, the strings that are accepted.**  The second character names the origin grain (`H` is `S`) and
the last one the development grain; neither is finer than that of the triangle, and the origin grain
is not finer than the development grain. -/
theorem _root_.CL.C08_sound {t u : Tri K} {s : List Char} (h : t.grain s = .ok u) :
    ∃ og dg, (s[1]? = some (letter og) ∨ (og = .S ∧ s[1]? = some 'H')) ∧
      s.getLast? = some (letter dg) ∧ t.ograin.months ≤ og.months ∧
      t.dgrain.months ≤ dg.months ∧ dg.months ≤ og.months := by
  have hlet : ∀ {c : Char} {g : Grain}, grainOf c = some g → c = letter g := by
    intro c g hg
    unfold grainOf at hg
    split at hg <;> first | (cases hg; rfl) | exact absurd hg (by simp)
  unfold grain at h
  cases e : s.getLast? with
  | none => simp [e] at h
  | some c =>
    simp only [e] at h
    cases e1 : s[1]? with
    | none => simp [e1] at h
    | some x =>
      simp only [e1, Option.bind_some] at h
      cases e2 : grainOf (if x = 'H' then 'S' else x) with
      | none => simp [e2] at h
      | some og =>
        cases e3 : grainOf c with
        | none => simp [e2, e3] at h
        | some dg =>
          simp only [e2, e3] at h
          refine ⟨og, dg, ?_, ?_, ?_⟩
          · by_cases hx : x = 'H'
            · rw [if_pos hx] at e2
              right
              exact ⟨by cases e2; rfl, by rw [hx]⟩
            · rw [if_neg hx] at e2
              left; rw [hlet e2]
          · rw [hlet e3]
          · unfold grainTo at h
            by_cases h1 : og ∉ validGrain t.ograin ∨ dg ∉ validGrain t.dgrain
            · rw [if_pos h1] at h; simp at h
            by_cases h3 : grainRank dg < grainRank og
            · rw [if_neg h1, if_pos h3] at h
              split_ifs at h
            simp only [not_or, not_not] at h1
            obtain ⟨h1, h1'⟩ := h1
            clear h
            revert h1 h1' h3
            generalize t.ograin = go
            generalize t.dgrain = gd
            cases go <;> cases gd <;> cases og <;> cases dg <;> decide

/-- **C08, conservation.**  An incremental triangle keeps the total of its amounts. -/
theorem _root_.CL.C08_total {t u : Tri K} {a A : Int} {n D q : Nat} {og dg : Grain}
    (h : Grid t a n D q) (hu : CoarseOf t u A og dg) (hc : t.isCum ≠ some true) {i c : Nat}
    (hi : i < t.kdims.length) (hc' : c < t.vdims.length) :
    ∑ g ∈ Finset.range u.odims.length, ∑ k ∈ Finset.range u.ddims.length, (u.values.get i c g k).amt =
      ∑ o ∈ Finset.range t.odims.length, ∑ d ∈ Finset.range t.ddims.length,
        (t.values.get i c o d).amt := by
  obtain ⟨L, hL1, hL2, hages⟩ := hu.ages
  have hm := months_pos dg
  have hWp := months_pos og
  have hgO : ∀ g < u.odims.length, u.odims.getD g 0 = A + ((g * og.months : Nat) : Int) := by
    intro g hg
    rw [hu.origins, List.getD_eq_getElem _ _ (by simpa using hg)]; simp
  have hgD : ∀ k < u.ddims.length, u.ddims.getD k 0 = ((L + k * dg.months : Nat) : Int) := by
    intro k hk
    rw [hages, List.getD_eq_getElem _ _ (by simpa using hk)]; simp
  have hval : ∀ g < u.odims.length, ∀ k < u.ddims.length, u.valuation g k =
      A + ((g * og.months : Nat) : Int) + ((L + k * dg.months : Nat) : Int) - 1 := by
    intro g hg k hk
    rw [hu.valued g hg k hk, hgO g hg, hgD k hk]
  let P : Nat → Nat → Nat → Nat → Prop := fun g k o d => u.valuation g k ≤ t.vd ∧
    u.odims.getD g 0 ≤ t.odims.getD o 0 ∧ t.odims.getD o 0 < u.odims.getD g 0 + og.months ∧
    u.valuation g k - dg.months < t.valuation o d ∧ t.valuation o d ≤ u.valuation g k
  have hP : ∀ g k o d, Decidable (P g k o d) := fun g k o d => by unfold P; infer_instance
  have step1 : ∀ g ∈ Finset.range u.odims.length, ∀ k ∈ Finset.range u.ddims.length,
      (u.values.get i c g k).amt = ∑ o ∈ Finset.range t.odims.length,
        ∑ d ∈ Finset.range t.ddims.length, if P g k o d then (t.values.get i c o d).amt else 0 := by
    intro g hg k hk
    rw [Finset.mem_range] at hg hk
    by_cases hv : u.valuation g k ≤ t.vd
    · rw [hu.cells i hi c hc' g hg k hk hv, if_neg hc]
      unfold blockAmt
      apply Finset.sum_congr rfl
      intro o _
      apply Finset.sum_congr rfl
      intro d _
      refine if_congr ?_ rfl rfl
      exact ⟨fun hh => ⟨hv, hh⟩, fun hh => hh.2⟩
    · rw [hu.after i hi c hc' g hg k hk (by omega)]
      symm
      apply Finset.sum_eq_zero
      intro o _
      apply Finset.sum_eq_zero
      intro d _
      rw [if_neg (fun hh => hv hh.1)]
  rw [Finset.sum_congr rfl fun g hg => Finset.sum_congr rfl fun k hk => step1 g hg k hk]
  rw [Finset.sum_congr rfl fun g _ => Finset.sum_comm, Finset.sum_comm]
  apply Finset.sum_congr rfl
  intro o ho
  rw [Finset.sum_congr rfl fun g _ => Finset.sum_comm, Finset.sum_comm]
  apply Finset.sum_congr rfl
  intro d hd
  rw [Finset.mem_range] at ho hd
  have ho' : o < n := by rw [← h.lenO]; exact ho
  have hd' : d < D := by rw [← h.lenD]; exact hd
  by_cases hx : (t.values.get i c o d).amt = 0
  · rw [hx]
    simp
  have hvd : t.valuation o d ≤ t.vd := by
    by_contra hcon
    apply hx
    rw [h.known i hi c hc' o ho' d hd' ?_]
    · rfl
    · by_contra hk
      apply hcon
      rw [h.valuation ho' hd', h.vd]
      have : (q * o + d + 1) * t.dgrain.months ≤ D * t.dgrain.months :=
        Nat.mul_le_mul_right _ (by omega)
      omega
  have hge : t.odims.getD o 0 ≤ t.valuation o d := by
    rw [h.valuation ho' hd', h.getO ho']
    have h1 : o * q * t.dgrain.months ≤ (q * o + d) * t.dgrain.months :=
      Nat.mul_le_mul_right _ (by rw [Nat.mul_comm]; omega)
    have := months_pos t.dgrain
    rw [Nat.add_mul (q * o + d)]
    omega
  obtain ⟨G, hG, hG1, hG2⟩ := hu.covers (t.odims.getD o 0) (by
    rw [List.getD_eq_getElem _ _ ho]; exact List.getElem_mem _)
  obtain ⟨g0, hg0, rfl⟩ := List.getElem_of_mem hG
  have hg0' := hgO g0 hg0
  rw [← List.getD_eq_getElem _ 0 hg0] at hG1 hG2
  obtain ⟨kl, hkl, hlast⟩ := hu.latest g0 hg0
  have hcols : ∃ k0 ≤ kl, u.valuation g0 k0 - dg.months < t.valuation o d ∧
      t.valuation o d ≤ u.valuation g0 k0 := by
    have : ∀ N, N ≤ kl → t.valuation o d ≤ u.valuation g0 N → ∃ k0 ≤ N,
        u.valuation g0 k0 - dg.months < t.valuation o d ∧ t.valuation o d ≤ u.valuation g0 k0 := by
      intro N
      induction N with
      | zero =>
        intro hN hle
        refine ⟨0, le_refl _, ?_, hle⟩
        rw [hval g0 hg0 0 (by omega)]
        omega
      | succ N ih =>
        intro hN hle
        by_cases hlt : u.valuation g0 (N + 1) - dg.months < t.valuation o d
        · exact ⟨N + 1, le_refl _, hlt, hle⟩
        · have e1 := hval g0 hg0 (N + 1) (by omega)
          have e2 := hval g0 hg0 N (by omega)
          rw [Nat.add_mul N 1] at e1
          obtain ⟨k0, hk0, hh⟩ := ih (by omega) (by omega)
          exact ⟨k0, by omega, hh⟩
    obtain ⟨k0, hk0, hh⟩ := this kl (le_refl _) (by rw [hlast]; exact hvd)
    exact ⟨k0, hk0, hh⟩
  obtain ⟨k0, hk0, hc1, hc2⟩ := hcols
  rw [Finset.sum_eq_single g0, Finset.sum_eq_single k0, if_pos]
  · refine ⟨?_, hG1, hG2, hc1, hc2⟩
    rw [← hlast, hval g0 hg0 k0 (by omega), hval g0 hg0 kl hkl]
    have : k0 * dg.months ≤ kl * dg.months := Nat.mul_le_mul_right _ hk0
    omega
  · intro k hk hne
    rw [Finset.mem_range] at hk
    rw [if_neg]
    rintro ⟨-, -, -, h1, h2⟩
    rw [hval g0 hg0 k hk] at h1 h2
    rw [hval g0 hg0 k0 (by omega)] at hc1 hc2
    apply hne
    rcases Nat.lt_trichotomy k k0 with hlt | e | hlt
    · have : (k + 1) * dg.months ≤ k0 * dg.months := Nat.mul_le_mul_right _ hlt
      rw [Nat.add_mul] at this
      omega
    · exact e
    · have : (k0 + 1) * dg.months ≤ k * dg.months := Nat.mul_le_mul_right _ hlt
      rw [Nat.add_mul] at this
      omega
  · intro hk
    exact absurd (Finset.mem_range.mpr (by omega)) hk
  · intro g hg hne
    rw [Finset.mem_range] at hg
    apply Finset.sum_eq_zero
    intro k _
    rw [if_neg]
    rintro ⟨-, h1, h2, -⟩
    rw [hgO g hg] at h1 h2
    rw [hg0'] at hG1 hG2
    apply hne
    rcases Nat.lt_trichotomy g g0 with hlt | e | hlt
    · have : (g + 1) * og.months ≤ g0 * og.months := Nat.mul_le_mul_right _ hlt
      rw [Nat.add_mul] at this
      omega
    · exact e
    · have : (g0 + 1) * og.months ≤ g * og.months := Nat.mul_le_mul_right _ hlt
      rw [Nat.add_mul] at this
      omega
  · intro hg
    exact absurd (Finset.mem_range.mpr hg0) hg

/-- **C08, the latest valuation.**  A cumulative triangle keeps the total of its latest diagonal. -/
theorem _root_.CL.C08_latest {t u : Tri K} {A : Int} {og dg : Grain}
    (hu : CoarseOf t u A og dg) (hc : t.isCum = some true) {i c : Nat}
    (hi : i < t.kdims.length) (hc' : c < t.vdims.length) :
    ∑ g ∈ Finset.range u.odims.length, ∑ k ∈ Finset.range u.ddims.length,
        (if u.valuation g k = t.vd then (u.values.get i c g k).amt else 0) =
      ∑ o ∈ Finset.range t.odims.length, ∑ d ∈ Finset.range t.ddims.length,
        if t.valuation o d = t.vd then (t.values.get i c o d).amt else 0 := by
  obtain ⟨L, hL1, hL2, hages⟩ := hu.ages
  have hm := months_pos dg
  have hWp := months_pos og
  have hgO : ∀ g < u.odims.length, u.odims.getD g 0 = A + ((g * og.months : Nat) : Int) := by
    intro g hg
    rw [hu.origins, List.getD_eq_getElem _ _ (by simpa using hg)]; simp
  have hgD : ∀ k < u.ddims.length, u.ddims.getD k 0 = ((L + k * dg.months : Nat) : Int) := by
    intro k hk
    rw [hages, List.getD_eq_getElem _ _ (by simpa using hk)]; simp
  have step1 : ∀ g ∈ Finset.range u.odims.length, (∑ k ∈ Finset.range u.ddims.length,
        if u.valuation g k = t.vd then (u.values.get i c g k).amt else 0) =
      ∑ o ∈ Finset.range t.odims.length, ∑ d ∈ Finset.range t.ddims.length,
        if u.odims.getD g 0 ≤ t.odims.getD o 0 ∧ t.odims.getD o 0 < u.odims.getD g 0 + og.months then
          (if t.valuation o d = t.vd then (t.values.get i c o d).amt else 0) else 0 := by
    intro g hg
    rw [Finset.mem_range] at hg
    obtain ⟨kl, hkl, hlast⟩ := hu.latest g hg
    rw [Finset.sum_eq_single kl, if_pos hlast, hu.cells i hi c hc' g hg kl hkl (le_of_eq hlast),
      if_pos hc, hlast]
    · unfold blockAmt
      apply Finset.sum_congr rfl
      intro o _
      apply Finset.sum_congr rfl
      intro d _
      rw [← ite_and]
      refine if_congr ?_ rfl rfl
      constructor
      · rintro ⟨h1, h2, h3, h4⟩
        exact ⟨⟨h1, h2⟩, by push_cast at h3; omega⟩
      · rintro ⟨⟨h1, h2⟩, h3⟩
        exact ⟨h1, h2, by push_cast; omega, le_of_eq h3⟩
    · intro k hk hne
      rw [Finset.mem_range] at hk
      rw [if_neg]
      intro e
      apply hne
      rw [hu.valued g hg k hk, hgD k hk] at e
      rw [hu.valued g hg kl hkl, hgD kl hkl] at hlast
      exact Nat.eq_of_mul_eq_mul_right hm (by omega)
    · intro hk
      exact absurd (Finset.mem_range.mpr hkl) hk
  rw [Finset.sum_congr rfl step1, Finset.sum_comm]
  apply Finset.sum_congr rfl
  intro o ho
  rw [Finset.sum_comm]
  apply Finset.sum_congr rfl
  intro d _
  rw [Finset.mem_range] at ho
  obtain ⟨G, hG, hG1, hG2⟩ := hu.covers (t.odims.getD o 0) (by
    rw [List.getD_eq_getElem _ _ ho]; exact List.getElem_mem _)
  obtain ⟨g0, hg0, rfl⟩ := List.getElem_of_mem hG
  rw [← List.getD_eq_getElem _ 0 hg0] at hG1 hG2
  rw [Finset.sum_eq_single g0, if_pos ⟨hG1, hG2⟩]
  · intro g hg hne
    rw [Finset.mem_range] at hg
    rw [if_neg]
    rintro ⟨h1, h2⟩
    rw [hgO g hg] at h1 h2
    rw [hgO g0 hg0] at hG1 hG2
    apply hne
    rcases Nat.lt_trichotomy g g0 with hlt | e | hlt
    · have : (g + 1) * og.months ≤ g0 * og.months := Nat.mul_le_mul_right _ hlt
      rw [Nat.add_mul] at this
      omega
    · exact e
    · have : (g0 + 1) * og.months ≤ g * og.months := Nat.mul_le_mul_right _ hlt
      rw [Nat.add_mul] at this
      omega
  · intro hg
    exact absurd (Finset.mem_range.mpr hg0) hg

theorem ok_of_check {x : Except Err (Tri ℚ)} (p : Tri ℚ → Prop) [DecidablePred p]
    (h : (match x with | .ok u => decide (p u) | .error _ => false) = true) : ∃ u, x = .ok u ∧ p u := by
  cases x with
  | error e => simp at h
  | ok u => exact ⟨u, rfl, of_decide_eq_true h⟩

/-- Six monthly origins from October on. -/
def C08months : Tri ℚ where
  values := ⟨1, 1, 6, 6, fun _ _ o d => if o + d < 6 then .fin (10 * o + d + 1) else .nan⟩
  kdims := [["Total"]]
  keyLabels := ["Total"]
  vdims := ["paid"]
  odims := [24249, 24250, 24251, 24252, 24253, 24254]
  ddims := [1, 2, 3, 4, 5, 6]
  vd := 24254
  isVal := false
  isCum := some true
  isPattern := false
  isAdditive := none
  ograin := .M
  dgrain := .M

/-- Four quarterly origins from April on. -/
def C08quarters : Tri ℚ where
  values := ⟨1, 1, 4, 4, fun _ _ o d => if o + d < 4 then .fin (10 * o + d + 1) else .nan⟩
  kdims := [["Total"]]
  keyLabels := ["Total"]
  vdims := ["paid"]
  odims := [24243, 24246, 24249, 24252]
  ddims := [3, 6, 9, 12]
  vd := 24254
  isVal := false
  isCum := some true
  isPattern := false
  isAdditive := none
  ograin := .Q
  dgrain := .Q

theorem C08months_grid : Grid C08months 24249 6 6 1 := by
  refine ⟨⟨rfl, rfl, rfl, rfl⟩, ?_, rfl, by decide, by decide, by decide, by decide, by decide,
    rfl, rfl, rfl, by decide, by decide, ?_⟩
  · intro i _ c _ o _ d _
    show Num.NoInf (if o + d < 6 then (.fin (10 * o + d + 1) : Num ℚ) else .nan)
    split <;> trivial
  · intro i _ c _ o ho d hd hlt
    show (if o + d < 6 then (.fin (10 * o + d + 1) : Num ℚ) else .nan) = .nan
    rw [if_neg (by omega)]

theorem C08quarters_grid : Grid C08quarters 24243 4 4 1 := by
  refine ⟨⟨rfl, rfl, rfl, rfl⟩, ?_, rfl, by decide, by decide, by decide, by decide, by decide,
    rfl, rfl, rfl, by decide, by decide, ?_⟩
  · intro i _ c _ o _ d _
    show Num.NoInf (if o + d < 4 then (.fin (10 * o + d + 1) : Num ℚ) else .nan)
    split <;> trivial
  · intro i _ c _ o ho d hd hlt
    show (if o + d < 4 then (.fin (10 * o + d + 1) : Num ℚ) else .nan) = .nan
    rw [if_neg (by omega)]

/-- **C08 (false), quarters over a year end.**  Six months from October on become two quarters, October
and January, which are taken for months: the amounts of the second quarter move two ages too far. -/
theorem _root_.CL.C08_quarters_false : ∃ u, C08months.grain ['O', 'Q', 'D', 'M'] = .ok u ∧
    u.odims = [24249, 24252] ∧ u.ograin = .M ∧ u.values.get 0 0 1 0 = .nan ∧
    u.values.get 0 0 1 2 = .fin 31 ∧ u.valuation 1 2 = 24254 ∧
    blockAmt C08months 0 0 24252 3 24254 1 = 126 ∧ ¬ CoarseOf C08months u 24249 .Q .M := by
  have hu : ∃ u, C08months.grain ['O', 'Q', 'D', 'M'] = .ok u ∧
    u.odims = [24249, 24252] ∧ u.ograin = .M ∧ u.values.get 0 0 1 0 = .nan ∧
    u.values.get 0 0 1 2 = .fin 31 ∧ u.valuation 1 2 = 24254 := by
    exact ok_of_check _ (by decide +kernel)
  obtain ⟨u, h1, h2, h3, h4, h5, h6⟩ := hu
  refine ⟨u, h1, h2, h3, h4, h5, h6, by decide +kernel, ?_⟩
  intro h
  have := h.grains.1
  rw [h3] at this
  exact absurd this (by decide)

/-- **C08 (false), quarterly development with a first origin in April.**  The columns put before are
labelled by the first months of their quarters, so the ages are 1, 4, 7, 10, 13 and no origin is valued at the
valuation date. -/
theorem _root_.CL.C08_ages_false : ∃ u, C08quarters.grain ['O', 'Y', 'D', 'Q'] = .ok u ∧
    u.odims = [24240, 24252] ∧ u.ddims = [1, 4, 7, 10, 13] ∧
    (∀ g < 2, ∀ k < 5, u.valuation g k ≠ 24254) ∧ ¬ CoarseOf C08quarters u 24240 .Y .Q := by
  have hu : ∃ u, C08quarters.grain ['O', 'Y', 'D', 'Q'] = .ok u ∧
    u.odims = [24240, 24252] ∧ u.ddims = [1, 4, 7, 10, 13] ∧
    (∀ g < 2, ∀ k < 5, u.valuation g k ≠ 24254) := by
    exact ok_of_check _ (by decide +kernel)
  obtain ⟨u, h1, h2, h3, h4⟩ := hu
  refine ⟨u, h1, h2, h3, h4, ?_⟩
  intro h
  obtain ⟨k, hk, e⟩ := h.latest 0 (by rw [h2]; decide)
  rw [h3] at hk
  exact h4 0 (by decide) k hk e

/-- Two monthly origins, November and December. -/
def C08late : Tri ℚ where
  values := ⟨1, 1, 2, 2, fun _ _ o d => if o + d < 2 then .fin (10 * o + d + 1) else .nan⟩
  kdims := [["Total"]]
  keyLabels := ["Total"]
  vdims := ["paid"]
  odims := [24250, 24251]
  ddims := [1, 2]
  vd := 24251
  isVal := false
  isCum := some true
  isPattern := false
  isAdditive := none
  ograin := .M
  dgrain := .M

theorem C08late_grid : Grid C08late 24250 2 2 1 := by
  refine ⟨⟨rfl, rfl, rfl, rfl⟩, ?_, rfl, by decide, by decide, by decide, by decide, by decide,
    rfl, rfl, rfl, by decide, by decide, ?_⟩
  · intro i _ c _ o _ d _
    show Num.NoInf (if o + d < 2 then (.fin (10 * o + d + 1) : Num ℚ) else .nan)
    split <;> trivial
  · intro i _ c _ o ho d hd hlt
    show (if o + d < 2 then (.fin (10 * o + d + 1) : Num ℚ) else .nan) = .nan
    rw [if_neg (by omega)]

/-- **C08 (false), fewer ages than months before the first origin.**  November and December to a year: ten
labels are put in front but only two columns, so the amount of December lands at the age of four months. -/
theorem _root_.CL.C08_few_false : ∃ u, C08late.grain ['O', 'Y', 'D', 'M'] = .ok u ∧
    u.odims = [24240] ∧ u.values.get 0 0 0 3 = .fin 13 ∧ u.valuation 0 3 = 24243 ∧
    u.values.get 0 0 0 11 = .nan ∧ u.valuation 0 11 = 24251 ∧
    blockAmt C08late 0 0 24240 12 24251 1 = 13 ∧ ¬ CoarseOf C08late u 24240 .Y .M := by
  have hu : ∃ u, C08late.grain ['O', 'Y', 'D', 'M'] = .ok u ∧
    (u.odims = [24240] ∧ u.values.get 0 0 0 3 = .fin 13 ∧ u.valuation 0 3 = 24243 ∧
    u.values.get 0 0 0 11 = .nan ∧ u.valuation 0 11 = 24251 ∧ u.ddims.length = 12) := by
    exact ok_of_check _ (by decide +kernel)
  obtain ⟨u, h1, h2, h3, h4, h5, h6, h7⟩ := hu
  refine ⟨u, h1, h2, h3, h4, h5, h6, by decide +kernel, ?_⟩
  intro h
  have e := h.cells 0 (by decide) 0 (by decide) 0 (by rw [h2]; decide) 3 (by omega) (by rw [h4]; decide)
  rw [h3, h2, h4] at e
  exact absurd e (by decide +kernel)

/-- **C08 (false), half years.**  A triangle of half years cannot be made annual. -/
theorem _root_.CL.C08_halfyears_false :
    ∃ t : Tri ℚ, Grid t 24240 4 4 1 ∧ t.ograin = .S ∧ t.dgrain = .S ∧
      t.grain ['O', 'Y', 'D', 'Y'] = .error .valueError := by
  refine ⟨{ C08quarters with
    odims := [24240, 24246, 24252, 24258]
    ddims := [6, 12, 18, 24]
    vd := 24263
    ograin := .S
    dgrain := .S }, ?_, rfl, rfl, rfl⟩
  refine ⟨⟨rfl, rfl, rfl, rfl⟩, C08quarters_grid.finite, rfl, by decide, by decide, by decide, by decide,
    by decide, rfl, rfl, rfl, by decide, by decide, C08quarters_grid.known⟩

/-- Two quarters within the year, and a change to years that puts three months before. -/
example : ∃ u, { C08months with
    odims := [24243, 24244, 24245, 24246, 24247, 24248], vd := 24248 }.grain ['O', 'Y', 'D', 'M'] = .ok u ∧
    u.odims = [24240] ∧ u.ddims = [1, 2, 3, 4, 5, 6, 7, 8, 9] ∧ u.values.get 0 0 0 2 = .nan ∧
    u.values.get 0 0 0 3 = .fin 1 ∧ u.values.get 0 0 0 8 = .fin (6 + 15 + 24 + 33 + 42 + 51) := by
  exact ok_of_check _ (by decide +kernel)

example : ∃ u, { C08months with
    odims := [24243, 24244, 24245, 24246, 24247, 24248], vd := 24248 }.grain ['O', 'Q', 'D', 'Q'] = .ok u ∧
    CoarseOf { C08months with
      odims := [24243, 24244, 24245, 24246, 24247, 24248], vd := 24248 } u 24243 .Q .Q := by
  refine C08_grain_partial (og := .Q) (dg := .Q) (t := { C08months with
      odims := [24243, 24244, 24245, 24246, 24247, 24248], vd := 24248 }) (a := 24243) (n := 6) (D := 6)
    (q := 1) ?_ rfl ⟨0, by decide, 0, by decide, 1, by decide, 0, by decide, by decide, by decide +kernel⟩
    (by decide) (by decide) (by decide) (by decide) (by decide) (Or.inl (by decide))
    (fun _ => ⟨Or.inl ⟨rfl, by decide⟩, by decide, Or.inr (by decide)⟩)
    (Or.inr ⟨0, by decide, 0, by decide, 1, 0, by decide, by decide +kernel⟩)
  exact ⟨⟨rfl, rfl, rfl, rfl⟩, C08months_grid.finite, rfl, by decide, by decide, by decide, by decide,
    by decide, rfl, rfl, rfl, by decide, by decide, C08months_grid.known⟩

end Tri
end CL
