import Verif.Model.Json
import Verif.Props.C16
import Verif.Props.C07
import Verif.Lemmas.Benktander

set_option linter.unusedSectionVars false

/-! # Records written by `to_json` -/

namespace CL
namespace Json
variable {K : Type} [Field K] [LinearOrder K] [IsStrictOrderedRing K]
open Tri Con

theorem mem_stored {t : Tri K} {i o d : Nat} : (i, o, d) ∈ stored t ↔
    i < t.kdims.length ∧ o < t.values.d2 ∧ d < t.values.d3 ∧
      ∃ c < t.values.d1, t.values.get i c o d ≠ .nan := by
  have hn : ∀ x : Num K, (!x.isNan) = true ↔ x ≠ .nan := by intro x; cases x <;> simp [Num.isNan]
  unfold stored
  simp only [List.mem_flatMap, List.mem_map, List.mem_filter, List.mem_range, List.any_eq_true,
    Prod.mk.injEq, hn, mem_sortPositions]
  constructor
  · rintro ⟨i', hi, o', ho, d', ⟨hd, c, hc, hx⟩, rfl, rfl, rfl⟩
    exact ⟨hi, ho, hd, c, hc, hx⟩
  · rintro ⟨hi, ho, hd, c, hc, hx⟩
    exact ⟨i, hi, o, ho, d, ⟨hd, c, hc, hx⟩, rfl, rfl, rfl⟩

theorem nodup_flatMap_key {α β : Type} {l : List α} {f : α → List β} {key : β → α} (hl : l.Nodup)
    (hf : ∀ a ∈ l, (f a).Nodup) (hk : ∀ a ∈ l, ∀ b ∈ f a, key b = a) : (l.flatMap f).Nodup := by
  rw [List.nodup_flatMap]
  refine ⟨hf, ?_⟩
  refine List.Pairwise.imp_of_mem ?_ hl
  intro a b ha hb hab
  show List.Disjoint (f a) (f b)
  intro x hx hy
  exact hab ((hk a ha x hx).symm.trans (hk b hb x hy))

theorem nodup_stored (t : Tri K) : (stored t).Nodup := by
  unfold stored
  refine nodup_flatMap_key (key := fun p => p.1)
    ((sortPositions_perm t.kdims).nodup_iff.2 List.nodup_range) (fun i _ => ?_) ?_
  · refine nodup_flatMap_key (key := fun p => p.2.1) List.nodup_range (fun o _ => ?_) ?_
    · refine List.Nodup.map_on ?_ (List.nodup_range.filter _)
      intro x _ y _ e
      exact congrArg (fun p : Nat × Nat × Nat => p.2.2) e
    · intro o _ b hb
      obtain ⟨d, -, rfl⟩ := List.mem_map.mp hb
      rfl
  · intro i _ b hb
    obtain ⟨o, -, hb⟩ := List.mem_flatMap.mp hb
    obtain ⟨d, -, rfl⟩ := List.mem_map.mp hb
    rfl

/-- The grain depends on the dates only, not on how often they occur. -/
theorem getGrain_congr {l m : List Int} (h : ∀ x, x ∈ l ↔ x ∈ m) : getGrain l = getGrain m := by
  have e1 : ((l.map (· % 12)).dedup).insertionSort (· ≤ ·) =
      ((m.map (· % 12)).dedup).insertionSort (· ≤ ·) := by
    show groupKeys _ = groupKeys _
    refine List.Pairwise.eq_of_mem_iff (groupKeys_sorted _) (groupKeys_sorted _) fun x => ?_
    rw [mem_groupKeys, mem_groupKeys, List.mem_map, List.mem_map]
    simp only [h]
  have e2 : l.dedup.length = m.dedup.length :=
    ((List.perm_ext_iff_of_nodup (List.nodup_dedup _) (List.nodup_dedup _)).mpr fun x => by
      rw [List.mem_dedup, List.mem_dedup, h]).length_eq
  unfold getGrain
  simp only [e1, e2]

theorem valOffset_months {dg og : Grain} {q : Nat} (h : Dev.valOffset dg og = some q) :
    og.months = q * dg.months ∧ finer og dg = dg := by
  cases dg <;> cases og <;> simp [Dev.valOffset] at h <;> subst h <;> decide

/-- The incremental triangle `t` on a regular grid of calendar origins, and enough stored cells to find
its axes: some cell is stored for the first origin at the first age, at the valuation date and after the
first origin, and the grains are those of the dates of the stored cells. -/
structure Written (t : Tri K) (a : Int) (n D q : Nat) : Prop extends Grid t a n D q where
  offset : Dev.valOffset t.dgrain t.ograin = some q
  calendar : (t.ograin.months : Int) ∣ a
  limit : D * t.dgrain.months < 9000
  before : t.vd < ultVal - 12
  keys : t.kdims.Nodup
  columns : t.vdims.Nodup
  first : ∃ i c, i < t.kdims.length ∧ c < t.vdims.length ∧ t.values.get i c 0 0 ≠ .nan
  last : ∃ i c o d, i < t.kdims.length ∧ c < t.vdims.length ∧ o < n ∧ d < D ∧ q * o + d + 1 = D ∧
    t.values.get i c o d ≠ .nan
  later : Later t
  noS : t.ograin ≠ .S ∧ t.dgrain ≠ .S
  ograin : ∀ l : List Int, (∀ m, m ∈ l ↔ ∃ i < t.kdims.length, ∃ c < t.vdims.length, ∃ o < n,
    ∃ d < D, t.values.get i c o d ≠ .nan ∧ t.odims.getD o 0 = m) → getGrain l = t.ograin
  dgrain : ∀ l : List Int, (∀ m, m ∈ l ↔ ∃ i < t.kdims.length, ∃ c < t.vdims.length, ∃ o < n,
    ∃ d < D, t.values.get i c o d ≠ .nan ∧ t.valuation o d = m) → getGrain l = t.dgrain

namespace Written
variable {t : Tri K} {a : Int} {n D q : Nat} {cols kl : List String} (h : Written t a n D q) (enc : K → K)
include h

theorem mem {i o d : Nat} : (i, o, d) ∈ stored t ↔ i < t.kdims.length ∧ o < n ∧ d < D ∧
    ∃ c < t.vdims.length, t.values.get i c o d ≠ .nan := by
  rw [mem_stored, h.wf.2.1, h.wf.2.2.1, h.wf.2.2.2, h.lenO, h.lenD]

theorem bound {i o d : Nat} (hp : (i, o, d) ∈ stored t) : q * o + d < D := by
  obtain ⟨hi, ho, hd, c, hc, hx⟩ := h.mem.mp hp
  by_contra hcon
  exact hx (h.known i hi c hc o ho d hd (by omega))

theorem mem_rows' {r : Rec K} : r ∈ (stored t).map (row enc t) ↔
    ∃ i o d, (i, o, d) ∈ stored t ∧ row enc t (i, o, d) = r := by
  simp [List.mem_map]

theorem row_origin {i o d : Nat} (hp : (i, o, d) ∈ stored t) :
    (row enc t (i, o, d)).origin.month = a + (o * q * t.dgrain.months : Nat) :=
  h.getO (h.mem.mp hp).2.1

theorem row_dev {i o d : Nat} (hp : (i, o, d) ∈ stored t) :
    (row enc t (i, o, d)).dev.month = a + ((q * o + d + 1) * t.dgrain.months : Nat) - 1 :=
  h.valuation (h.mem.mp hp).2.1 (h.mem.mp hp).2.2.1

theorem oGrain_eq : oGrain ((stored t).map (row enc t)) = t.ograin := by
  refine h.ograin _ fun m => ?_
  simp only [List.mem_map]
  constructor
  · rintro ⟨r, ⟨⟨i, o, d⟩, hp, rfl⟩, rfl⟩
    obtain ⟨hi, ho, hd, c, hc, hx⟩ := h.mem.mp hp
    exact ⟨i, hi, c, hc, o, ho, d, hd, hx, rfl⟩
  · rintro ⟨i, hi, c, hc, o, ho, d, hd, hx, rfl⟩
    exact ⟨_, ⟨(i, o, d), h.mem.mpr ⟨hi, ho, hd, c, hc, hx⟩, rfl⟩, rfl⟩

theorem dGrain_eq : dGrain ((stored t).map (row enc t)) = t.dgrain := by
  refine h.dgrain _ fun m => ?_
  simp only [List.mem_map]
  constructor
  · rintro ⟨r, ⟨⟨i, o, d⟩, hp, rfl⟩, rfl⟩
    obtain ⟨hi, ho, hd, c, hc, hx⟩ := h.mem.mp hp
    exact ⟨i, hi, c, hc, o, ho, d, hd, hx, rfl⟩
  · rintro ⟨i, hi, c, hc, o, ho, d, hd, hx, rfl⟩
    exact ⟨_, ⟨(i, o, d), h.mem.mpr ⟨hi, ho, hd, c, hc, hx⟩, rfl⟩, rfl⟩

theorem first_mem : ∃ i, (i, 0, 0) ∈ stored t := by
  obtain ⟨i, c, hi, hc, hx⟩ := h.first
  have := h.two_ages
  have := h.two_origins
  exact ⟨i, h.mem.mpr ⟨hi, by omega, by omega, c, hc, hx⟩⟩

theorem last_mem : ∃ i o d, (i, o, d) ∈ stored t ∧ q * o + d + 1 = D := by
  obtain ⟨i, c, o, d, hi, hc, ho, hd, e, hx⟩ := h.last
  exact ⟨i, o, d, h.mem.mpr ⟨hi, ho, hd, c, hc, hx⟩, e⟩

theorem dgrain_dvd : (t.dgrain.months : Int) ∣ a := by
  have h1 := (valOffset_months h.offset).1
  have h2 := h.calendar
  rw [h1] at h2
  exact dvd_trans (by push_cast; exact Dvd.intro_left _ rfl) h2

/-- The origins are calendar periods. -/
theorem cal : Calendar true ((stored t).map (row enc t)) := by
  intro _ _
  rw [h.oGrain_eq]
  have hmin : (((((stored t).map (row enc t)).map Rec.origin).map Date.month).min?) = some a := by
    rw [List.min?_eq_some_iff]
    simp only [List.map_map, List.mem_map, Function.comp]
    constructor
    · obtain ⟨i, hi⟩ := h.first_mem
      exact ⟨_, hi, by rw [h.row_origin enc hi]; simp⟩
    · rintro b ⟨⟨i, o, d⟩, hp, rfl⟩
      rw [h.row_origin enc hp]
      omega
  unfold beforeMin
  rw [hmin]
  simp only [Option.getD_some]
  rw [if_pos]
  · have hd := h.calendar
    have h12 : (t.ograin.months : Int) ∣ 12 := by cases t.ograin <;> decide
    apply Int.emod_eq_zero_of_dvd
    have : (a - 1) % 12 + 1 = a - 12 * ((a - 1) / 12) := by have := Int.emod_add_mul_ediv (a - 1) 12; omega
    rw [this]
    exact dvd_sub hd (dvd_mul_of_dvd_left h12 _)
  · rw [List.any_eq_true]
    obtain ⟨i, hi⟩ := h.first_mem
    refine ⟨(row enc t (i, 0, 0)).origin, List.mem_map.mpr ⟨_, List.mem_map.mpr ⟨_, hi, rfl⟩, rfl⟩, ?_⟩
    have := h.row_origin enc hi
    have h2 : (row enc t (i, 0, 0)).origin.day = 1 := rfl
    simp [this, h2]

theorem start_eq {i o d : Nat} (hp : (i, o, d) ∈ stored t) :
    startOf true ((stored t).map (row enc t)) (row enc t (i, o, d)) =
      a + (o * q * t.dgrain.months : Nat) := by
  have h1 := start_aligned (h.cal enc) (row enc t (i, o, d))
  have h2 := start_le (tr := true) (recs := (stored t).map (row enc t)) (row enc t (i, o, d))
  have h3 := lt_start (tr := true) (recs := (stored t).map (row enc t)) (row enc t (i, o, d))
  rw [h.oGrain_eq enc] at h1 h3
  rw [h.row_origin enc hp] at h2 h3
  have h4 : (t.ograin.months : Int) ∣ a + (o * q * t.dgrain.months : Nat) := by
    refine dvd_add h.calendar ?_
    rw [(valOffset_months h.offset).1]
    exact ⟨o, by push_cast; ring⟩
  have := Int.eq_zero_of_abs_lt_dvd (dvd_sub h4 h1) (by rw [abs_lt]; constructor <;> omega)
  omega

theorem vd_dvd {k : Nat} : (t.dgrain.months : Int) ∣ t.vd - (a + ((k + 1) * t.dgrain.months : Nat) - 1) := by
  rw [h.vd]
  exact ⟨D - (k + 1), by push_cast; ring⟩

theorem end_eq {i o d : Nat} (hp : (i, o, d) ∈ stored t) :
    endOf true ((stored t).map (row enc t)) (row enc t (i, o, d)) =
      a + ((q * o + d + 1) * t.dgrain.months : Nat) - 1 := by
  unfold endOf
  rw [h.dGrain_eq enc, h.row_dev enc hp]
  have hmax : (((((stored t).map (row enc t)).map Rec.dev).map Date.month).max?) = some t.vd := by
    rw [List.max?_eq_some_iff]
    simp only [List.map_map, List.mem_map, Function.comp]
    constructor
    · obtain ⟨i, o, d, hi, e⟩ := h.last_mem
      exact ⟨_, hi, by rw [h.row_dev enc hi, e, h.vd]⟩
    · rintro b ⟨⟨i, o, d⟩, hp, rfl⟩
      rw [h.row_dev enc hp, h.vd]
      have : (q * o + d + 1) * t.dgrain.months ≤ D * t.dgrain.months :=
        Nat.mul_le_mul_right _ (h.bound hp)
      omega
  have hdv := h.vd_dvd (k := q * o + d)
  have h12 : (t.dgrain.months : Int) ∣ 12 := by cases t.dgrain <;> decide
  unfold toEnd devEnd
  by_cases hM : t.dgrain = .M
  · rw [hM]
    simp [Grain.months]
  · rw [if_pos ⟨rfl, hM⟩, if_neg, hmax, Option.getD_some]
    · rw [Int.emod_eq_zero_of_dvd, add_zero]
      have : t.vd % 12 - (a + ((q * o + d + 1) * t.dgrain.months : Nat) - 1) =
          (t.vd - (a + ((q * o + d + 1) * t.dgrain.months : Nat) - 1)) - 12 * (t.vd / 12) := by
        have := Int.emod_add_mul_ediv t.vd 12; omega
      rw [this]
      exact dvd_sub hdv (dvd_mul_of_dvd_left h12 _)
    · rw [List.any_eq_true]
      rintro ⟨x, hx, hb⟩
      obtain ⟨r, hr, rfl⟩ := List.mem_map.mp hx
      obtain ⟨p, -, rfl⟩ := List.mem_map.mp hr
      have hday : (row enc t p).dev.day = Cal.monthDays (t.valuation p.2.1 p.2.2).toNat := rfl
      have hne : ∀ m, Cal.monthDays m ≠ 1 := by
        intro m
        unfold Cal.monthDays
        split <;> try decide
        split <;> decide
      rw [hday] at hb
      simp at hb
      exact hne _ hb.1

theorem valid {i o d : Nat} (hp : (i, o, d) ∈ stored t) :
    Valid true ((stored t).map (row enc t)) (row enc t (i, o, d)) := by
  show startOf _ _ _ ≤ endOf _ _ _
  rw [h.start_eq enc hp, h.end_eq enc hp]
  have h1 := months_pos t.dgrain
  have : (q * o + d + 1) * t.dgrain.months = o * q * t.dgrain.months + d * t.dgrain.months + t.dgrain.months := by
    ring
  rw [this]
  push_cast
  have : (0 : Int) ≤ d * t.dgrain.months := by positivity
  omega

theorem short' : ∀ r ∈ (stored t).map (row enc t), ∀ s ∈ (stored t).map (row enc t),
    r.dev.month - s.origin.month < 9000 := by
  intro r hr s hs
  obtain ⟨i, o, d, hp, rfl⟩ := (h.mem_rows' enc).mp hr
  obtain ⟨i', o', d', hp', rfl⟩ := (h.mem_rows' enc).mp hs
  rw [h.row_dev enc hp, h.row_origin enc hp']
  have h1 : (q * o + d + 1) * t.dgrain.months ≤ D * t.dgrain.months :=
    Nat.mul_le_mul_right _ (h.bound hp)
  have h2 := h.limit
  omega

theorem text_noInf (x : Num K) : (text enc x).NoInf := by
  unfold text
  cases x <;> simp [Num.nan0, Num.NoInf]

/-- The constructor finds the axes of the triangle that was written, and all origins up to the valuation
date. -/
theorem construct_grid (hcols : cols ≠ []) : ∃ u n1, construct cols kl (some false) true
      ((stored t).map (row enc t)) = .ok u ∧ Grid u a n1 D q ∧ n ≤ n1 ∧ u.vd = t.vd ∧
      u.ograin = t.ograin ∧ u.dgrain = t.dgrain ∧ u.keyLabels = kl ∧ u.vdims = cols ∧
      u.isCum = some false ∧ u.isPattern = false ∧ u.isAdditive = none ∧ u.kdims.Nodup ∧
      (∀ k, k ∈ u.kdims ↔ ∃ i o d, (i, o, d) ∈ stored t ∧ t.kdims.getD i [] = k) := by
  obtain ⟨i0, hi0⟩ := h.first_mem
  have hmo := months_pos t.dgrain
  have hq1 := (valOffset_months h.offset).1
  obtain ⟨u, hu⟩ : ∃ u, construct cols kl (some false) true
      ((stored t).map (row enc t)) = .ok u := by
    refine C16_ok ?_ ?_ ?_ ?_
    · exact fun e => h.noS.1 ((h.oGrain_eq enc).symm.trans e)
    · exact fun e => h.noS.2 ((h.dGrain_eq enc).symm.trans e)
    · intro r hr
      obtain ⟨i, o, d, hp, rfl⟩ := (h.mem_rows' enc).mp hr
      rw [h.row_dev enc hp]
      have h1 : (q * o + d + 1) * t.dgrain.months ≤ D * t.dgrain.months :=
        Nat.mul_le_mul_right _ (h.bound hp)
      have h2 := h.before
      rw [h.vd] at h2
      omega
    · refine ⟨_, List.mem_map.mpr ⟨_, hi0, rfl⟩, ?_⟩
      rw [h.row_dev enc hi0, h.row_origin enc hi0]
      simp
      omega
  have hcopy := hu
  obtain ⟨omin, omax, dmin, dmax, hs, -, -, -, hb⟩ := construct_ok hu
  have homin : omin = a := by
    obtain ⟨r, hr, -, e⟩ := hs.omin_mem
    obtain ⟨i, o, d, hp, rfl⟩ := (h.mem_rows' enc).mp hr
    rw [h.start_eq enc hp] at e
    have := hs.omin_le _ (List.mem_map.mpr ⟨_, hi0, rfl⟩) (h.valid enc hi0)
    rw [h.start_eq enc hi0] at this
    simp at this
    omega
  have hdmax : dmax = t.vd := by
    obtain ⟨r, hr, -, e⟩ := hs.dmax_mem
    obtain ⟨i, o, d, hp, rfl⟩ := (h.mem_rows' enc).mp hr
    rw [h.end_eq enc hp] at e
    obtain ⟨i1, o1, d1, hp1, e1⟩ := h.last_mem
    have := hs.le_dmax _ (List.mem_map.mpr ⟨_, hp1, rfl⟩) (h.valid enc hp1)
    rw [h.end_eq enc hp1, e1] at this
    have h1 : (q * o + d + 1) * t.dgrain.months ≤ D * t.dgrain.months :=
      Nat.mul_le_mul_right _ (h.bound hp)
    have := h.vd
    omega
  have hog : u.ograin = t.ograin := by rw [hb]; exact h.oGrain_eq enc
  have hdg : u.dgrain = t.dgrain := by
    rw [hb]
    show finer (oGrain _) (dGrain _) = _
    rw [h.oGrain_eq enc, h.dGrain_eq enc]
    exact (valOffset_months h.offset).2
  have hvd : u.vd = t.vd := by rw [hb]; exact hdmax
  have hod := hs.built_odims (cols := cols) (keyLabels := kl) (cum := some false) (h.cal enc)
  rw [← hb, homin, h.oGrain_eq enc, hdmax] at hod
  have hlast : a + ((n - 1 : Nat) : Int) * t.ograin.months ≤ Span.last ((stored t).map (row enc t)) t.vd := by
    have h1 := h.origin_le (o := n - 1) (by have := h.two_origins; omega)
    unfold Span.last
    rw [h.oGrain_eq enc]
    refine le_toStart ?_ ?_
    · exact dvd_add h.calendar (Dvd.intro_left _ rfl)
    · refine le_trans (le_of_eq ?_) h1
      rw [hq1]; push_cast; ring
  have hlen : n ≤ u.odims.length := by
    rw [hod, length_periods]
    have h1 : ((n - 1 : Nat) : Int) ≤ (Span.last ((stored t).map (row enc t)) t.vd - a) / t.ograin.months := by
      rw [Int.le_ediv_iff_mul_le (months_pos' _)]
      omega
    have := h.two_origins
    omega
  have h0 : u.odims.getD 0 0 = a := by
    rw [hod, List.getD_eq_getElem?_getD, getD_periods (by rw [← hod]; have := h.two_origins; omega)]
    simp
  have hgrid : Grid u (u.odims.getD 0 0) u.odims.length u.ddims.length (u.ograin.months / t.dgrain.months) := by
    refine C16_grid_partial hcopy (h.cal enc) (h.short' enc) ?_ ?_ ?_ ?_ ?_ ?_ hcols
    · intro r hr c _
      obtain ⟨p, -, rfl⟩ := List.mem_map.mp hr
      exact text_noInf h enc _
    · exact congrArg Grain.months (h.dGrain_eq enc).symm
    · rw [hog, hq1]; exact Nat.dvd_mul_left _ _
    · rw [hvd, h0, h.vd]
      exact ⟨D, by push_cast; ring⟩
    · refine ⟨_, List.mem_map.mpr ⟨_, hi0, rfl⟩, ?_⟩
      rw [h.row_dev enc hi0, h.row_origin enc hi0, h0, hog]
      have := months_pos t.ograin
      simp
      omega
    · have := h.two_origins; omega
  have hqq : u.ograin.months / t.dgrain.months = q := by
    rw [hog, hq1, Nat.mul_div_cancel _ (by omega)]
  rw [h0, hqq] at hgrid
  have hD : u.ddims.length = D := by
    have e1 := hgrid.vd
    rw [hvd, h.vd, hdg] at e1
    have : D * t.dgrain.months = u.ddims.length * t.dgrain.months := by omega
    exact (Nat.eq_of_mul_eq_mul_right (by omega) this).symm
  rw [hD] at hgrid
  refine ⟨u, u.odims.length, hcopy, hgrid, hlen, hvd, hog, hdg, ?_, ?_, ?_, ?_, ?_, ?_, ?_⟩
  · rw [hb]; rfl
  · rw [hb]; rfl
  · rw [hb]; rfl
  · rw [hb]; rfl
  · rw [hb]; rfl
  · rw [hb]; exact nodup_firstSeen _
  · intro k
    rw [hb]
    show k ∈ firstSeen _ ↔ _
    rw [mem_firstSeen, List.mem_map]
    constructor
    · rintro ⟨x, hx, rfl⟩
      obtain ⟨r, hr, hv, rfl⟩ := (mem_rows _).mp hx
      obtain ⟨i, o, d, hp, rfl⟩ := (h.mem_rows' enc).mp hr
      exact ⟨i, o, d, hp, rfl⟩
    · rintro ⟨i, o, d, hp, rfl⟩
      exact ⟨_, (mem_rows _).mpr ⟨_, List.mem_map.mpr ⟨_, hp, rfl⟩, h.valid enc hp, rfl⟩, rfl⟩

/-- Cells of the triangle built from the records. -/
theorem construct_cell {u : Tri K} {n1 : Nat} (hu : construct cols kl (some false) true
      ((stored t).map (row enc t)) = .ok u) (hg : Grid u a n1 D q) (hdg : u.dgrain = t.dgrain)
    (hog : u.ograin = t.ograin)
    {i i' c o d : Nat} (hi : i < t.kdims.length) (hc : c < t.vdims.length)
    (hk : u.kdims[i']? = some (t.kdims.getD i [])) (ho : o < n1) (hd : d < D) :
    u.values.get i' c o d = if o < n ∧ ∃ c' < t.vdims.length, t.values.get i c' o d ≠ .nan then
      ((text enc (t.values.get i c o d)).nan0).numToNan else .nan := by
  rw [C16_cell_partial hu (h.cal enc) (h.short' enc) (by rw [hg.lenO]; exact ho)
    (by rw [hg.lenD]; exact hd)]
  have hp := months_pos t.dgrain
  have hq := h.period
  have hq1 := (valOffset_months h.offset).1
  have hdG : getGrain (((stored t).map (row enc t)).map fun r => r.dev.month) = t.dgrain := h.dGrain_eq enc
  rw [List.filter_map]
  have hf : (stored t).filter ((fun r : Rec K => decide (u.kdims[i']? = some r.key ∧
      Belongs u (getGrain (((stored t).map (row enc t)).map fun r => r.dev.month)).months r o d)) ∘
        row enc t) = (stored t).filter (· = (i, o, d)) := by
    refine List.filter_congr ?_
    rintro ⟨i2, o2, d2⟩ hm
    obtain ⟨hi2, ho2, hd2, -⟩ := h.mem.mp hm
    simp only [Function.comp, decide_eq_decide]
    rw [hdG]
    unfold Belongs
    rw [h.row_origin enc hm, h.row_dev enc hm, hg.getO ho, hg.valuation ho hd, hg.vd, hdg, hog, hq1, hk]
    have hkey : (row enc t (i2, o2, d2)).key = t.kdims.getD i2 [] := rfl
    rw [hkey]
    constructor
    · rintro ⟨e1, e2, e3, e4, e5, -⟩
      have ei : i2 = i := by
        have := Option.some.inj e1
        rw [List.getD_eq_getElem _ _ hi, List.getD_eq_getElem _ _ hi2] at this
        exact ((List.Nodup.getElem_inj_iff h.keys).mp this).symm
      have eo : o2 = o := by
        have f1 : o * q * t.dgrain.months ≤ o2 * q * t.dgrain.months := by omega
        have f2 : o2 * q * t.dgrain.months < (o + 1) * q * t.dgrain.months := by
          have : (o + 1) * q * t.dgrain.months = o * q * t.dgrain.months + q * t.dgrain.months := by ring
          rw [this]; omega
        have g1 := Nat.le_of_mul_le_mul_right (Nat.le_of_mul_le_mul_right f1 (by omega)) (by omega)
        have g2 := Nat.lt_of_mul_lt_mul_right (Nat.lt_of_mul_lt_mul_right f2)
        omega
      subst eo ei
      have ed : d2 = d := by
        have f1 : (q * o2 + d2 + 1) * t.dgrain.months ≤ (q * o2 + d + 1) * t.dgrain.months := by omega
        have f2 : (q * o2 + d + 1) * t.dgrain.months < (q * o2 + d2 + 2) * t.dgrain.months := by
          have : (q * o2 + d2 + 2) * t.dgrain.months = (q * o2 + d2 + 1) * t.dgrain.months + t.dgrain.months := by
            ring
          rw [this]; omega
        have g1 := Nat.le_of_mul_le_mul_right f1 (by omega)
        have g2 := Nat.lt_of_mul_lt_mul_right f2
        omega
      rw [ed]
    · intro e
      simp only [Prod.mk.injEq] at e
      obtain ⟨rfl, rfl, rfl⟩ := e
      have : 0 < q * t.dgrain.months := by positivity
      refine ⟨rfl, le_refl _, by omega, by omega, le_refl _, ?_⟩
      exact ⟨(q * o2 + d2 + 1) - D, by push_cast; ring⟩
  rw [hf, List.filter_eq]
  by_cases hm : (i, o, d) ∈ stored t
  · rw [List.count_eq_one_of_mem (nodup_stored t) hm]
    obtain ⟨-, ho2, -, hc'⟩ := h.mem.mp hm
    rw [if_pos ⟨ho2, hc'⟩]
    simp [row]
  · rw [List.count_eq_zero.mpr hm, if_neg]
    · simp
      exact Num.numToNan_fin_zero
    · rintro ⟨ho2, hc'⟩
      exact hm (h.mem.mpr ⟨hi, ho2, hd, hc'⟩)

end Written
end Json
end CL
