import Verif.Lemmas.Construct

set_option linter.unusedSectionVars false

/-! # C16: triangles from records -/

namespace CL
namespace Con
variable {K : Type} [Field K] [LinearOrder K] [IsStrictOrderedRing K]

/-- Record `r` belongs in cell `(o, d)` of `t`: its origin date is in the origin period, and its
development date in the development period of `n` months that closes at the valuation of the cell.
Development periods close whole periods away from the valuation date of the triangle. -/
def Belongs (t : Tri K) (n : Nat) (r : Rec K) (o d : Nat) : Prop :=
  t.odims.getD o 0 ≤ r.origin.month ∧ r.origin.month < t.odims.getD o 0 + t.ograin.months ∧
  t.valuation o d - n < r.dev.month ∧ r.dev.month ≤ t.valuation o d ∧
  (n : Int) ∣ t.valuation o d - t.vd

instance (t : Tri K) (n : Nat) (r : Rec K) (o d : Nat) : Decidable (Belongs t n r o d) := by
  unfold Belongs; infer_instance

variable {tr : Bool} {recs : List (Rec K)} {omin omax dmin dmax : Int}
variable {cols keyLabels : List String} {cum : Option Bool}

/-- Valuation of a cell. -/
theorem built_valuation (h : Span tr recs omin omax dmin dmax) (hc : Calendar tr recs)
    (hshort : ∀ r ∈ recs, ∀ s ∈ recs, r.dev.month - s.origin.month < 9000) {o d : Nat}
    (ho : o < (built cols keyLabels cum tr recs omin omax dmin dmax).odims.length)
    (hd : d < (built cols keyLabels cum tr recs omin omax dmin dmax).ddims.length) :
    (built cols keyLabels cum tr recs omin omax dmin dmax).valuation o d =
      if (built cols keyLabels cum tr recs omin omax dmin dmax).isVal then dmax
      else omin + o * (oGrain recs).months +
        (built cols keyLabels cum tr recs omin omax dmin dmax).ddims.getD d 0 - 1 := by
  obtain ⟨e1, e2⟩ := h.origin hc ho
  unfold Tri.valuation Tri.valuationOf
  rw [e1]
  set t := built cols keyLabels cum tr recs omin omax dmin dmax with ht
  have hdd : t.ddims = if t.isVal then [dmax] else
    groupKeys ((dateAxes (oGrain recs) (dGrain recs) omin omax dmin dmax).map
      fun p => p.2 - p.1 + 1) := rfl
  cases hv : t.isVal
  · simp only [Bool.false_eq_true, if_false]
    rw [if_neg]
    · rw [show t.vd = dmax from rfl, min_eq_left e2]
    · rintro ⟨e, -⟩
      rw [hdd, hv, if_neg (by simp)] at e
      have := (h.age_bound hshort (List.mem_of_getLast? e)).2
      omega
  · simp only [if_true]
    rw [hdd, hv] at hd ⊢
    simp only [if_true, List.length_singleton] at hd ⊢
    have : d = 0 := by omega
    subst this
    rfl

/-- A record belongs in the cell of its origin period and the close of its development period. -/
theorem belongs_iff (h : Span tr recs omin omax dmin dmax) (hc : Calendar tr recs) {o : Nat} (d : Nat)
    (r : Rec K)
    (ho : o < (built cols keyLabels cum tr recs omin omax dmin dmax).odims.length) :
    Belongs (built cols keyLabels cum tr recs omin omax dmin dmax) (dGrain recs).months r o d ↔
      startOf tr recs r = omin + o * (oGrain recs).months ∧ endOf tr recs r =
        (built cols keyLabels cum tr recs omin omax dmin dmax).valuation o d := by
  obtain ⟨e1, e2⟩ := h.origin hc ho
  unfold Belongs
  set t := built cols keyLabels cum tr recs omin omax dmin dmax with ht
  rw [e1, show t.ograin = oGrain recs from rfl, show t.vd = dmax from rfl]
  have s1 := start_le (tr := tr) (recs := recs) r
  have s2 := lt_start (tr := tr) (recs := recs) r
  have s3 := le_end (tr := tr) (recs := recs) r
  have s4 := end_lt (tr := tr) (recs := recs) r
  obtain ⟨rm, hrm, hrv, erm⟩ := h.omin_mem
  obtain ⟨rx, hrx, hrxv, erx⟩ := h.dmax_mem
  have d1 := start_dvd (tr := tr) (recs := recs) r rm
  have d2 := end_dvd (tr := tr) (recs := recs) r rx
  rw [erm] at d1
  rw [erx] at d2
  have pn := months_pos' (oGrain recs)
  have pn' := months_pos' (dGrain recs)
  -- origin
  have hO : (omin + o * (oGrain recs).months ≤ r.origin.month ∧
      r.origin.month < omin + o * (oGrain recs).months + (oGrain recs).months) ↔
      startOf tr recs r = omin + o * (oGrain recs).months := by
    constructor
    · rintro ⟨h1, h2⟩
      have hd0 : ((oGrain recs).months : Int) ∣
          startOf tr recs r - (omin + o * (oGrain recs).months) := by
        have : startOf tr recs r - (omin + o * (oGrain recs).months) =
          (startOf tr recs r - omin) - o * (oGrain recs).months := by ring
        rw [this]; exact dvd_sub d1 (Dvd.intro_left _ rfl)
      have := Int.eq_zero_of_abs_lt_dvd hd0 (by rw [abs_lt]; constructor <;> omega)
      omega
    · intro e; rw [← e]; exact ⟨s1, s2⟩
  -- development
  have hD : ∀ v : Int, (v - (dGrain recs).months < r.dev.month ∧ r.dev.month ≤ v ∧
      ((dGrain recs).months : Int) ∣ v - dmax) ↔ endOf tr recs r = v := by
    intro v
    constructor
    · rintro ⟨h1, h2, h3⟩
      have hd0 : ((dGrain recs).months : Int) ∣ endOf tr recs r - v := by
        have : endOf tr recs r - v = (endOf tr recs r - dmax) - (v - dmax) := by ring
        rw [this]; exact dvd_sub d2 h3
      have := Int.eq_zero_of_abs_lt_dvd hd0 (by rw [abs_lt]; constructor <;> omega)
      omega
    · rintro rfl
      exact ⟨by omega, s3, d2⟩
  rw [← hO, ← hD]
  exact ⟨fun ⟨b, c, d, e, f⟩ => ⟨⟨b, c⟩, d, e, f⟩, fun ⟨⟨b, c⟩, d, e, f⟩ => ⟨b, c, d, e, f⟩⟩

theorem built_cell (h : Span tr recs omin omax dmin dmax) (hc : Calendar tr recs)
    (hshort : ∀ r ∈ recs, ∀ s ∈ recs, r.dev.month - s.origin.month < 9000) {i c o d : Nat}
    (ho : o < (built cols keyLabels cum tr recs omin omax dmin dmax).odims.length)
    (hd : d < (built cols keyLabels cum tr recs omin omax dmin dmax).ddims.length) :
    (built cols keyLabels cum tr recs omin omax dmin dmax).values.get i c o d =
      (((recs.filter fun r : Rec K =>
        decide ((built cols keyLabels cum tr recs omin omax dmin dmax).kdims[i]? = some r.key ∧
          Belongs (built cols keyLabels cum tr recs omin omax dmin dmax)
            (dGrain recs).months r o d)).map fun r : Rec K => (r.amount c).nan0).sum).numToNan := by
  have hval := built_valuation h hc hshort ho hd
  obtain ⟨e1, e2⟩ := h.origin hc ho
  have hage : (built cols keyLabels cum tr recs omin omax dmin dmax).isVal = false →
      (built cols keyLabels cum tr recs omin omax dmin dmax).ddims =
    groupKeys ((dateAxes (oGrain recs) (dGrain recs) omin omax dmin dmax).map
      fun p => p.2 - p.1 + 1) := by
    intro hv
    show (if (built cols keyLabels cum tr recs omin omax dmin dmax).isVal then _ else _) = _
    rw [hv]; rfl
  have hone : (built cols keyLabels cum tr recs omin omax dmin dmax).isVal = true →
      d = 0 ∧ ∀ r ∈ recs, Valid tr recs r → endOf tr recs r = dmax := by
    intro hv
    have hdd : (built cols keyLabels cum tr recs omin omax dmin dmax).ddims = [dmax] := by
      show (if (built cols keyLabels cum tr recs omin omax dmin dmax).isVal then _ else _) = _
      rw [hv]; rfl
    rw [hdd, List.length_singleton] at hd
    refine ⟨by omega, fun r hr hv' => ?_⟩
    have hle : ((dateAxes (oGrain recs) (dGrain recs) omin omax dmin dmax).map
        fun p => p.2).dedup.length ≤ 1 := not_lt.mp (of_decide_eq_true hv)
    have m1 : endOf tr recs r ∈ ((dateAxes (oGrain recs) (dGrain recs) omin omax dmin dmax).map
        fun p => p.2).dedup := List.mem_dedup.mpr (List.mem_map.mpr
          ⟨(startOf tr recs r, endOf tr recs r),
            (Span.mem_axes _ _).mpr ⟨h.mem_o hr hv', h.mem_d hr hv', hv'⟩, rfl⟩)
    have m2 : dmax ∈ ((dateAxes (oGrain recs) (dGrain recs) omin omax dmin dmax).map
        fun p => p.2).dedup := List.mem_dedup.mpr (List.mem_map.mpr
          ⟨(startOf tr recs r, dmax),
            (Span.mem_axes _ _).mpr ⟨h.mem_o hr hv', h.dmax_per,
              le_trans (h.le_omax r hr hv') h.le_vd⟩, rfl⟩)
    generalize ((dateAxes (oGrain recs) (dGrain recs) omin omax dmin dmax).map
        fun p => p.2).dedup = l at hle m1 m2
    match l, hle, m1, m2 with
    | [x], _, m1, m2 => rw [List.mem_singleton] at m1 m2; rw [m1, m2]
    | x :: y :: l, hle, _, _ => simp at hle
  set t := built cols keyLabels cum tr recs omin omax dmin dmax with ht
  have hcell : t.values.get i c o d = cellOf (rows tr recs) (total tr recs) t.kdims
    (groupKeys ((dateAxes (oGrain recs) (dGrain recs) omin omax dmin dmax).map fun p => p.1))
    t.ddims t.isVal i c o d := rfl
  rw [hcell, h.odims0]
  unfold cellOf
  rw [sum_rows]
  congr 3
  refine List.filter_congr fun r hr => ?_
  apply decide_eq_decide.mpr
  rw [decide_eq_true_eq]
  have hk : t.kdims.Nodup := nodup_firstSeen _
  rw [findIdx_some hk, findIdx_some ((periods_sorted _ _ _).imp fun h => ne_of_lt h)]
  show (Valid tr recs r ∧ t.kdims[i]? = some r.key ∧
    (periods (oGrain recs) omin omax)[o]? = some (startOf tr recs r) ∧
      if t.isVal = true then d = 0 else
        t.ddims.findIdx? (· == endOf tr recs r - startOf tr recs r + 1) = some d) ↔ _
  rw [ht, belongs_iff h hc d r ho, ← ht, hval]
  cases hv : t.isVal
  · simp only [Bool.false_eq_true, if_false]
    have hnd : t.ddims.Nodup := by
      rw [hage hv]; exact (groupKeys_sorted _).imp fun h => ne_of_lt h
    rw [findIdx_some hnd]
    have hget : t.ddims[d]? = some (t.ddims.getD d 0) := by
      rw [List.getElem?_eq_getElem hd, List.getD_eq_getElem _ _ hd]
    have hpos := (h.age_bound hshort (by rw [← hage hv]; exact List.mem_of_getElem? hget)).1
    rw [hget, Option.some.injEq]
    constructor
    · rintro ⟨hv', hk', hs, he⟩
      rw [h.start_iff hc hr hv'] at hs
      exact ⟨hk', hs, by omega⟩
    · rintro ⟨hk', hs, he⟩
      have hv' : Valid tr recs r := by show startOf tr recs r ≤ endOf tr recs r; omega
      exact ⟨hv', hk', (h.start_iff hc hr hv').mpr hs, by omega⟩
  · simp only [if_true]
    obtain ⟨hd0, hend⟩ := hone hv
    constructor
    · rintro ⟨hv', hk', hs, -⟩
      rw [h.start_iff hc hr hv'] at hs
      exact ⟨hk', hs, hend r hr hv'⟩
    · rintro ⟨hk', hs, he⟩
      have hv' : Valid tr recs r := by show startOf tr recs r ≤ endOf tr recs r; omega
      exact ⟨hv', hk', (h.start_iff hc hr hv').mpr hs, hd0⟩

theorem ages_or (cols keyLabels : List String) (cum : Option Bool) (tr : Bool) (recs : List (Rec K))
    (omin omax dmin dmax : Int) :
    ((built cols keyLabels cum tr recs omin omax dmin dmax).isVal = true ∧
      (built cols keyLabels cum tr recs omin omax dmin dmax).ddims = [dmax]) ∨
    ((built cols keyLabels cum tr recs omin omax dmin dmax).isVal = false ∧
      (built cols keyLabels cum tr recs omin omax dmin dmax).ddims =
        groupKeys ((dateAxes (oGrain recs) (dGrain recs) omin omax dmin dmax).map
          fun p => p.2 - p.1 + 1)) := by
  cases hv : (built cols keyLabels cum tr recs omin omax dmin dmax).isVal
  · refine Or.inr ⟨rfl, ?_⟩
    show (if (built cols keyLabels cum tr recs omin omax dmin dmax).isVal then _ else _) = _
    rw [hv]; rfl
  · refine Or.inl ⟨rfl, ?_⟩
    show (if (built cols keyLabels cum tr recs omin omax dmin dmax).isVal then _ else _) = _
    rw [hv]; rfl

theorem one_val (h : Span tr recs omin omax dmin dmax)
    (hv : (built cols keyLabels cum tr recs omin omax dmin dmax).isVal = true) :
    ∀ r ∈ recs, Valid tr recs r → endOf tr recs r = dmax := by
  intro r hr hv'
  have hle : ((dateAxes (oGrain recs) (dGrain recs) omin omax dmin dmax).map
      fun p => p.2).dedup.length ≤ 1 := not_lt.mp (of_decide_eq_true hv)
  have m1 : endOf tr recs r ∈ ((dateAxes (oGrain recs) (dGrain recs) omin omax dmin dmax).map
      fun p => p.2).dedup := List.mem_dedup.mpr (List.mem_map.mpr
        ⟨(startOf tr recs r, endOf tr recs r),
          (Span.mem_axes _ _).mpr ⟨h.mem_o hr hv', h.mem_d hr hv', hv'⟩, rfl⟩)
  have m2 : dmax ∈ ((dateAxes (oGrain recs) (dGrain recs) omin omax dmin dmax).map
      fun p => p.2).dedup := List.mem_dedup.mpr (List.mem_map.mpr
        ⟨(startOf tr recs r, dmax),
          (Span.mem_axes _ _).mpr ⟨h.mem_o hr hv', h.dmax_per,
            le_trans (h.le_omax r hr hv') h.le_vd⟩, rfl⟩)
  generalize ((dateAxes (oGrain recs) (dGrain recs) omin omax dmin dmax).map
      fun p => p.2).dedup = l at hle m1 m2
  match l, hle, m1, m2 with
  | [x], _, m1, m2 => rw [List.mem_singleton] at m1 m2; rw [m1, m2]
  | x :: y :: l, hle, _, _ => simp at hle

/-- The cell of a valid record. -/
theorem exists_cell (h : Span tr recs omin omax dmin dmax) (hc : Calendar tr recs)
    (hshort : ∀ r ∈ recs, ∀ s ∈ recs, r.dev.month - s.origin.month < 9000) {r : Rec K}
    (hr : r ∈ recs) (hv : Valid tr recs r) :
    ∃ i < (built cols keyLabels cum tr recs omin omax dmin dmax).kdims.length,
    ∃ o < (built cols keyLabels cum tr recs omin omax dmin dmax).odims.length,
    ∃ d < (built cols keyLabels cum tr recs omin omax dmin dmax).ddims.length,
      (built cols keyLabels cum tr recs omin omax dmin dmax).kdims[i]? = some r.key ∧
      Belongs (built cols keyLabels cum tr recs omin omax dmin dmax) (dGrain recs).months r o d := by
  have hk : r.key ∈ (built cols keyLabels cum tr recs omin omax dmin dmax).kdims :=
    (mem_firstSeen _ _).mpr (List.mem_map.mpr
      ⟨rowKey tr recs r, (mem_rows _).mpr ⟨r, hr, hv, rfl⟩, rfl⟩)
  obtain ⟨i, hi, ei⟩ := List.mem_iff_getElem.mp hk
  obtain ⟨o, ho, eo⟩ : ∃ o < (built cols keyLabels cum tr recs omin omax dmin dmax).odims.length,
      startOf tr recs r = omin + o * (oGrain recs).months := by
    have hm := (mem_periods h.o_le h.o_dvd).mp (h.mem_o hr hv)
    have hm' : startOf tr recs r ∈ periods (oGrain recs) omin (Span.last recs dmax) :=
      (mem_periods (le_trans h.o_le (h.omax_le_last hc)) (h.last_dvd hc)).mpr
        ⟨hm.1, le_trans hm.2.1 (h.omax_le_last hc), hm.2.2⟩
    rw [← h.built_odims (cols := cols) (keyLabels := keyLabels) (cum := cum) hc] at hm'
    obtain ⟨o, ho, eo⟩ := List.mem_iff_getElem.mp hm'
    refine ⟨o, ho, ?_⟩
    have := (h.origin (cols := cols) (keyLabels := keyLabels) (cum := cum) hc ho).1
    rw [List.getD_eq_getElem _ _ ho, eo] at this
    exact this
  obtain ⟨d, hd, ed⟩ : ∃ d < (built cols keyLabels cum tr recs omin omax dmin dmax).ddims.length,
      endOf tr recs r = (built cols keyLabels cum tr recs omin omax dmin dmax).valuation o d := by
    rcases ages_or cols keyLabels cum tr recs omin omax dmin dmax with ⟨hv', e⟩ | ⟨hv', e⟩
    · have h0 : 0 < (built cols keyLabels cum tr recs omin omax dmin dmax).ddims.length := by
        rw [e]; simp
      refine ⟨0, h0, ?_⟩
      rw [built_valuation h hc hshort ho h0, hv', if_pos rfl]
      exact one_val h hv' r hr hv
    · have hm : endOf tr recs r - startOf tr recs r + 1 ∈
          (built cols keyLabels cum tr recs omin omax dmin dmax).ddims := by
        rw [e, mem_groupKeys]
        exact List.mem_map.mpr ⟨(startOf tr recs r, endOf tr recs r),
          (Span.mem_axes _ _).mpr ⟨h.mem_o hr hv, h.mem_d hr hv, hv⟩, rfl⟩
      obtain ⟨d, hd, ed⟩ := List.mem_iff_getElem.mp hm
      refine ⟨d, hd, ?_⟩
      rw [built_valuation h hc hshort ho hd, hv', if_neg (by simp), List.getD_eq_getElem _ _ hd, ed]
      omega
  exact ⟨i, hi, o, ho, d, hd, by rw [List.getElem?_eq_getElem hi, ei],
    (belongs_iff h hc d r ho).mpr ⟨eo, ed⟩⟩

theorem unique_cell (h : Span tr recs omin omax dmin dmax) (hc : Calendar tr recs)
    (hshort : ∀ r ∈ recs, ∀ s ∈ recs, r.dev.month - s.origin.month < 9000) {r : Rec K}
    {o o' d d' : Nat}
    (ho : o < (built cols keyLabels cum tr recs omin omax dmin dmax).odims.length)
    (ho' : o' < (built cols keyLabels cum tr recs omin omax dmin dmax).odims.length)
    (hd : d < (built cols keyLabels cum tr recs omin omax dmin dmax).ddims.length)
    (hd' : d' < (built cols keyLabels cum tr recs omin omax dmin dmax).ddims.length)
    (hb : Belongs (built cols keyLabels cum tr recs omin omax dmin dmax) (dGrain recs).months r o d)
    (hb' : Belongs (built cols keyLabels cum tr recs omin omax dmin dmax) (dGrain recs).months r
      o' d') : o = o' ∧ d = d' := by
  rw [belongs_iff h hc d r ho] at hb
  rw [belongs_iff h hc d' r ho'] at hb'
  have pn := months_pos' (oGrain recs)
  have eo : o = o' := by
    have : (o : Int) * (oGrain recs).months = o' * (oGrain recs).months := by
      have h1 := hb.1; have h2 := hb'.1; omega
    have := mul_right_cancel₀ (ne_of_gt pn) this
    omega
  subst eo
  refine ⟨rfl, ?_⟩
  have e : (built cols keyLabels cum tr recs omin omax dmin dmax).valuation o d =
      (built cols keyLabels cum tr recs omin omax dmin dmax).valuation o d' := hb.2.symm.trans hb'.2
  rw [built_valuation h hc hshort ho hd, built_valuation h hc hshort ho hd'] at e
  rcases ages_or cols keyLabels cum tr recs omin omax dmin dmax with ⟨hv', e'⟩ | ⟨hv', e'⟩
  · rw [e', List.length_singleton] at hd hd'; omega
  · rw [hv', if_neg (by simp), if_neg (by simp)] at e
    have hnd : (built cols keyLabels cum tr recs omin omax dmin dmax).ddims.Nodup := by
      rw [e']; exact (groupKeys_sorted _).imp fun h => ne_of_lt h
    rw [List.getD_eq_getElem _ _ hd, List.getD_eq_getElem _ _ hd'] at e
    exact (List.Nodup.getElem_inj_iff hnd).mp (by omega)

theorem sum_partition {ι α M : Type} [AddCommMonoid M] (S : Finset ι) (P : ι → α → Prop)
    [∀ x r, Decidable (P x r)] (f : α → M) : ∀ rs : List α,
    (∀ r ∈ rs, ∃ x ∈ S, P x r ∧ ∀ y ∈ S, P y r → y = x) →
    ∑ x ∈ S, ((rs.filter fun r => decide (P x r)).map f).sum = (rs.map f).sum
  | [], _ => by simp
  | r :: rs, h => by
    have ih := sum_partition S P f rs fun r' hr => h r' (List.mem_cons_of_mem _ hr)
    obtain ⟨x, hx, hp, hu⟩ := h r (by simp)
    have step : ∀ y, (((r :: rs).filter fun r => decide (P y r)).map f).sum =
        (if P y r then f r else 0) + ((rs.filter fun r => decide (P y r)).map f).sum := by
      intro y
      rw [List.filter_cons]
      by_cases hy : P y r <;> simp [hy]
    rw [Finset.sum_congr rfl fun y _ => step y, Finset.sum_add_distrib, ih, List.map_cons,
      List.sum_cons]
    congr 1
    rw [Finset.sum_eq_single x, if_pos hp]
    · intro y hy hne
      rw [if_neg fun hpy => hne (hu y hy hpy)]
    · exact fun hn => absurd hx hn

theorem sum_fin_list {α : Type} (g : α → Num K) : ∀ rs : List α, (∀ r ∈ rs, (g r).NoInf) →
    (rs.map fun r => (g r).nan0).sum = .fin (rs.map fun r => (g r).amt).sum
  | [], _ => rfl
  | r :: rs, hg => by
    rw [List.map_cons, List.sum_cons, sum_fin_list g rs fun r hr => hg r (by simp [hr]), List.map_cons, List.sum_cons,
      Num.nan0_eq (hg r (by simp)), Num.fin_add_fin]

theorem valid_of (r : Rec K) (h : r.origin.month ≤ r.dev.month) : Valid tr recs r :=
  le_trans (start_le r) (le_trans h (le_end r))

/-- **C16 (cells), partial: calendar origin periods.**  Every cell is the sum of the records that
belong in it, missing when that is 0. -/
theorem _root_.CL.C16_cell_partial {t : Tri K}
    (e : construct cols keyLabels cum tr recs = .ok t) (hc : Calendar tr recs)
    (hshort : ∀ r ∈ recs, ∀ s ∈ recs, r.dev.month - s.origin.month < 9000)
    {i c o d : Nat} (ho : o < t.odims.length) (hd : d < t.ddims.length) :
    t.values.get i c o d = (((recs.filter fun r : Rec K => decide (t.kdims[i]? = some r.key ∧
      Belongs t (getGrain (recs.map fun r => r.dev.month)).months r o d)).map
        fun r : Rec K => (r.amount c).nan0).sum).numToNan := by
  obtain ⟨omin, omax, dmin, dmax, hs, -, -, -, rfl⟩ := construct_ok e
  exact built_cell hs hc hshort ho hd

/-- **C16 (coverage), partial: calendar origin periods.**  A record that is not developed before its
origin belongs in exactly one cell. -/
theorem _root_.CL.C16_covered_partial {t : Tri K}
    (e : construct cols keyLabels cum tr recs = .ok t) (hc : Calendar tr recs)
    (hshort : ∀ r ∈ recs, ∀ s ∈ recs, r.dev.month - s.origin.month < 9000)
    {r : Rec K} (hr : r ∈ recs) (hle : r.origin.month ≤ r.dev.month) :
    ∃! p : Nat × Nat × Nat, p.1 < t.kdims.length ∧ p.2.1 < t.odims.length ∧
      p.2.2 < t.ddims.length ∧ t.kdims[p.1]? = some r.key ∧
      Belongs t (getGrain (recs.map fun r => r.dev.month)).months r p.2.1 p.2.2 := by
  obtain ⟨omin, omax, dmin, dmax, hs, -, -, -, rfl⟩ := construct_ok e
  obtain ⟨i, hi, o, ho, d, hd, hk, hb⟩ := exists_cell (cols := cols) (keyLabels := keyLabels)
    (cum := cum) hs hc hshort hr (valid_of r hle)
  refine ⟨(i, o, d), ⟨hi, ho, hd, hk, hb⟩, ?_⟩
  rintro ⟨i', o', d'⟩ ⟨hi', ho', hd', hk', hb'⟩
  simp only at hi' ho' hd' hk' hb'
  obtain ⟨e1, e2⟩ := unique_cell hs hc hshort ho' ho hd' hd hb' hb
  have e3 : i' = i := by
    rw [List.getElem?_eq_getElem hi'] at hk'
    rw [List.getElem?_eq_getElem hi] at hk
    exact (List.Nodup.getElem_inj_iff (nodup_firstSeen _)).mp
      ((Option.some.inj hk').trans (Option.some.inj hk).symm)
  rw [e1, e2, e3]

/-- **C16 (totals), partial: calendar origin periods.**  The cells of a column add up to its
records. -/
theorem _root_.CL.C16_total_partial {t : Tri K}
    (e : construct cols keyLabels cum tr recs = .ok t) (hc : Calendar tr recs)
    (hshort : ∀ r ∈ recs, ∀ s ∈ recs, r.dev.month - s.origin.month < 9000)
    (hle : ∀ r ∈ recs, r.origin.month ≤ r.dev.month) {c : Nat}
    (hfin : ∀ r ∈ recs, (r.amount c).NoInf) :
    ∑ i ∈ Finset.range t.kdims.length, ∑ o ∈ Finset.range t.odims.length,
      ∑ d ∈ Finset.range t.ddims.length, (t.values.get i c o d).amt =
        (recs.map fun r => (r.amount c).amt).sum := by
  have hcell := fun (p : Nat × Nat × Nat) (h1 : p.2.1 < t.odims.length)
    (h2 : p.2.2 < t.ddims.length) => C16_cell_partial (i := p.1) (c := c) e hc hshort h1 h2
  have hcov := fun r hr => C16_covered_partial e hc hshort (r := r) hr (hle r hr)
  rw [← sum_partition (Finset.range t.kdims.length ×ˢ Finset.range t.odims.length ×ˢ
    Finset.range t.ddims.length) (fun (p : Nat × Nat × Nat) (r : Rec K) => t.kdims[p.1]? = some r.key ∧
      Belongs t (getGrain (recs.map fun r => r.dev.month)).months r p.2.1 p.2.2)
      (fun r : Rec K => (r.amount c).amt) recs]
  · rw [Finset.sum_product, Finset.sum_congr rfl fun i _ => Finset.sum_product _ _ _]
    refine Finset.sum_congr rfl fun i _ => Finset.sum_congr rfl fun o ho =>
      Finset.sum_congr rfl fun d hd => ?_
    rw [hcell (i, o, d) (Finset.mem_range.mp ho) (Finset.mem_range.mp hd), Num.amt_numToNan,
      sum_fin_list _ _ fun r hr => hfin r (List.mem_of_mem_filter hr), Num.amt_fin]
  · intro r hr
    obtain ⟨p, ⟨h1, h2, h3, h4⟩, hu⟩ := hcov r hr
    refine ⟨p, ?_, h4, fun y hy hP => hu y ?_⟩
    · simp only [Finset.mem_product, Finset.mem_range]; exact ⟨h1, h2, h3⟩
    · simp only [Finset.mem_product, Finset.mem_range] at hy
      exact ⟨hy.1, hy.2.1, hy.2.2, hP⟩

/-- Nothing belongs after the valuation date. -/
theorem belongs_le (h : Span tr recs omin omax dmin dmax) (hc : Calendar tr recs)
    (hshort : ∀ r ∈ recs, ∀ s ∈ recs, r.dev.month - s.origin.month < 9000) {r : Rec K}
    (hr : r ∈ recs) {o d : Nat}
    (ho : o < (built cols keyLabels cum tr recs omin omax dmin dmax).odims.length)
    (hd : d < (built cols keyLabels cum tr recs omin omax dmin dmax).ddims.length)
    (hb : Belongs (built cols keyLabels cum tr recs omin omax dmin dmax) (dGrain recs).months r o d) :
    (built cols keyLabels cum tr recs omin omax dmin dmax).valuation o d ≤ dmax := by
  obtain ⟨h1, h2⟩ := (belongs_iff h hc d r ho).mp hb
  have hv : Valid tr recs r := by
    show startOf tr recs r ≤ endOf tr recs r
    rw [h1, h2, built_valuation h hc hshort ho hd]
    rcases ages_or cols keyLabels cum tr recs omin omax dmin dmax with ⟨hv', e⟩ | ⟨hv', e⟩
    · rw [hv', if_pos rfl]; exact (h.origin hc ho).2
    · rw [hv', if_neg (by simp)]
      have := (h.age_bound hshort (x := (built cols keyLabels cum tr recs omin omax dmin
        dmax).ddims.getD d 0) (by
          rw [← e, List.getD_eq_getElem _ _ hd]; exact List.getElem_mem hd)).1
      omega
  rw [← h2]
  exact h.le_dmax r hr hv

/-- **C16 (shape), partial: calendar origin periods.**  The triangle is well formed: labels match the
array, the axes are ordered, every cell is missing or finite, and nothing is recorded after the
valuation date. -/
theorem _root_.CL.C16_proper_partial {t : Tri K}
    (e : construct cols keyLabels cum tr recs = .ok t) (hc : Calendar tr recs)
    (hshort : ∀ r ∈ recs, ∀ s ∈ recs, r.dev.month - s.origin.month < 9000)
    (hfin : ∀ r ∈ recs, ∀ c < cols.length, (r.amount c).NoInf) : Tri.Proper t := by
  have hcell := fun {i c o d} => C16_cell_partial (i := i) (c := c) (o := o) (d := d) e hc hshort
  obtain ⟨omin, omax, dmin, dmax, h, -, -, hult, rfl⟩ := construct_ok e
  refine ⟨⟨rfl, rfl, rfl, rfl⟩, ?_, ?_, ?_, ?_, ?_, ?_⟩
  · intro hv
    rcases ages_or cols keyLabels cum tr recs omin omax dmin dmax with ⟨hv', e'⟩ | ⟨hv', e'⟩
    · rw [hv] at hv'; cases hv'
    · refine ⟨fun o ho => ?_, fun d hd => ?_, fun h9 => ?_⟩
      · obtain ⟨k, hk, rfl⟩ := List.mem_iff_getElem.mp ho
        have := h.origin (cols := cols) (keyLabels := keyLabels) (cum := cum) hc hk
        rw [List.getD_eq_getElem _ _ hk] at this
        rw [this.1]; exact this.2
      · rw [e'] at hd; exact (h.age_bound hshort hd).1
      · have := List.mem_of_mem_dropLast h9
        rw [e'] at this
        have := (h.age_bound hshort this).2
        omega
  · intro _
    show dmax ≤ ultVal
    obtain ⟨r, hr, -, er⟩ := h.dmax_mem
    have h1 := hult r hr
    have h2 := end_lt (tr := tr) (recs := recs) r
    have h9 : ((dGrain recs).months : Int) ≤ 12 := by cases dGrain recs <;> decide
    omega
  · rcases ages_or cols keyLabels cum tr recs omin omax dmin dmax with ⟨hv', e'⟩ | ⟨hv', e'⟩
    · rw [e']; simp
    · rw [e']; exact (groupKeys_sorted _).imp fun h => ne_of_lt h
  · intro o ho d hd d' hd'
    rw [built_valuation h hc hshort ho hd, built_valuation h hc hshort ho (by omega)]
    rcases ages_or cols keyLabels cum tr recs omin omax dmin dmax with ⟨hv', e'⟩ | ⟨hv', e'⟩
    · rw [hv']; simp
    · rw [hv', if_neg (by simp), if_neg (by simp)]
      have hs : (built cols keyLabels cum tr recs omin omax dmin dmax).ddims.Pairwise (· < ·) := by
        rw [e']; exact groupKeys_sorted _
      rw [List.getD_eq_getElem _ _ hd, List.getD_eq_getElem _ _ (by omega : d' < _)]
      rcases Nat.lt_or_eq_of_le hd' with hlt | heq
      · have := List.pairwise_iff_getElem.mp hs d' d (by omega) hd hlt
        omega
      · subst heq; omega
  · intro i hi c hcl o ho d hd
    rw [hcell ho hd]
    refine Num.noInf_numToNan ?_
    rw [sum_fin_list _ _ fun r hr => hfin r (List.mem_of_mem_filter hr) c hcl]
    trivial
  · intro i hi c hcl o ho d hd hgt
    rw [hcell ho hd, List.filter_eq_nil_iff.mpr]
    · exact Num.numToNan_fin_zero
    · intro r hr hP
      have hb := (of_decide_eq_true hP).2
      exact absurd (belongs_le h hc hshort hr ho hd hb) (not_le.mpr hgt)

/-- **C16 (success).**  The constructor succeeds on records of annual, quarterly or monthly grain, if
some record is not developed before its origin. -/
theorem _root_.CL.C16_ok (hS : getGrain (recs.map fun r => r.origin.month) ≠ .S)
    (hS' : getGrain (recs.map fun r => r.dev.month) ≠ .S)
    (hult : ∀ r ∈ recs, r.dev.month < ultVal - 12)
    (hne : ∃ r ∈ recs, r.origin.month ≤ r.dev.month) :
    ∃ t, construct cols keyLabels cum tr recs = .ok t := by
  unfold construct
  simp only
  rw [if_neg]
  · obtain ⟨r, hr, hle⟩ := hne
    have hm : rowKey tr recs r ∈ rows tr recs := (mem_rows _).mpr ⟨r, hr, valid_of r hle, rfl⟩
    have hn : ∀ f : RowKey → Int, (rows tr recs).map f ≠ [] := fun f e => by
      rw [List.map_eq_nil_iff] at e
      rw [e] at hm; cases hm
    have hmin : ∀ f : RowKey → Int, ∃ a, ((rows tr recs).map f).min? = some a := fun f => by
      cases e : ((rows tr recs).map f).min? with
      | none => exact absurd (List.min?_eq_none_iff.mp e) (hn f)
      | some a => exact ⟨a, rfl⟩
    have hmax : ∀ f : RowKey → Int, ∃ a, ((rows tr recs).map f).max? = some a := fun f => by
      cases e : ((rows tr recs).map f).max? with
      | none => exact absurd (List.max?_eq_none_iff.mp e) (hn f)
      | some a => exact ⟨a, rfl⟩
    obtain ⟨a, ea⟩ := hmin fun k => k.1
    obtain ⟨b, eb⟩ := hmax fun k => k.1
    obtain ⟨c, ec⟩ := hmin fun k => k.2.1
    obtain ⟨d, ed⟩ := hmax fun k => k.2.1
    simp only [ea, eb, ec, ed]
    exact ⟨_, rfl⟩
  · rintro (h | h | h)
    · exact hS h
    · exact hS' h
    · obtain ⟨r, hr, hd⟩ := List.any_eq_true.mp h
      have := of_decide_eq_true hd
      have := hult r hr
      omega

theorem groupKeys_perm {κ : Type} [LinearOrder κ] {l m : List κ} (h : l.Perm m) :
    groupKeys l = groupKeys m :=
  List.Pairwise.eq_of_mem_iff (groupKeys_sorted _) (groupKeys_sorted _) fun x => by
    rw [mem_groupKeys, mem_groupKeys, h.mem_iff]

theorem getGrain_perm {l m : List Int} (h : l.Perm m) : getGrain l = getGrain m := by
  unfold getGrain
  have e : ((l.map (· % 12)).dedup).insertionSort (· ≤ ·) =
      ((m.map (· % 12)).dedup).insertionSort (· ≤ ·) := groupKeys_perm (h.map _)
  simp only [e, h.dedup.length_eq]

theorem min_perm {l m : List Int} (h : l.Perm m) : l.min? = m.min? := by
  ext a
  rw [List.min?_eq_some_iff, List.min?_eq_some_iff, h.mem_iff]
  simp only [h.mem_iff]

theorem max_perm {l m : List Int} (h : l.Perm m) : l.max? = m.max? := by
  ext a
  rw [List.max?_eq_some_iff, List.max?_eq_some_iff, h.mem_iff]
  simp only [h.mem_iff]

/-- **C16 (order).**  The order of the records does not matter. -/
theorem _root_.CL.C16_order {recs recs' : List (Rec K)} (h : recs.Perm recs') :
    construct cols keyLabels cum tr recs = construct cols keyLabels cum tr recs' := by
  have h1 : oGrain recs = oGrain recs' := getGrain_perm (h.map _)
  have h2 : dGrain recs = dGrain recs' := getGrain_perm (h.map _)
  have hb : ∀ {l m : List Date}, l.Perm m → beforeMin l = beforeMin m := by
    intro l m hp
    unfold beforeMin
    rw [min_perm (hp.map _)]
    simp only [hp.any_eq]
  have h3 : ∀ r, startOf tr recs r = startOf tr recs' r := by
    intro r
    unfold startOf originEnd
    rw [h1, hb (h.map _)]
  have h4 : ∀ r, endOf tr recs r = endOf tr recs' r := by
    intro r
    unfold endOf devEnd
    rw [h2, hb (h.map _), (h.map Rec.dev).any_eq, max_perm ((h.map Rec.dev).map _)]
  have h5 : rowKey tr recs = rowKey tr recs' := by
    funext r
    unfold rowKey
    rw [h3, h4]
  have h6 : rows tr recs = rows tr recs' := by
    unfold rows
    rw [h5, groupKeys_perm (h.map _)]
  have h7 : total tr recs = total tr recs' := by
    funext k c
    unfold total
    rw [h5]
    exact ((h.filter _).map _).sum_eq
  unfold construct
  rw [h1, h2, h6, h7, h.any_eq]

/-- **C16 (regular axes), partial: calendar origin periods.**  When development periods divide origin
periods and close with them, and some record of the first origin falls in its first development period,
the axes are regular in the sense of `Tri.Grid`. -/
theorem _root_.CL.C16_grid_partial {t : Tri K}
    (e : construct cols keyLabels cum tr recs = .ok t) (hc : Calendar tr recs)
    (hshort : ∀ r ∈ recs, ∀ s ∈ recs, r.dev.month - s.origin.month < 9000)
    (hfin : ∀ r ∈ recs, ∀ c < cols.length, (r.amount c).NoInf)
    {n' : Nat} (hn' : n' = (getGrain (recs.map fun r => r.dev.month)).months)
    (hdvd : n' ∣ t.ograin.months) (hclose : (n' : Int) ∣ t.vd + 1 - t.odims.getD 0 0)
    (hfirst : ∃ r ∈ recs, r.origin.month < t.odims.getD 0 0 + t.ograin.months ∧
      r.dev.month < t.odims.getD 0 0 + n' ∧ r.origin.month ≤ r.dev.month)
    (htwo : 2 ≤ t.odims.length) (hcols : cols ≠ []) :
    Tri.Grid t (t.odims.getD 0 0) t.odims.length t.ddims.length (t.ograin.months / n') := by
  have hprop := C16_proper_partial e hc hshort hfin
  obtain ⟨omin, omax, dmin, dmax, h, -, -, hult, rfl⟩ := construct_ok e
  have e0 : (built cols keyLabels cum tr recs omin omax dmin dmax).odims.getD 0 0 = omin := by
    have := (h.origin (cols := cols) (keyLabels := keyLabels) (cum := cum) hc (o := 0) (by omega)).1
    rw [this]; simp
  rw [e0] at hclose hfirst ⊢
  replace hn' : n' = (dGrain recs).months := hn'
  obtain ⟨q, hq⟩ := hdvd
  have hog : (built cols keyLabels cum tr recs omin omax dmin dmax).ograin = oGrain recs := rfl
  rw [hog] at hq hfirst ⊢
  replace hclose : (n' : Int) ∣ dmax + 1 - omin := hclose
  have pn : 0 < (oGrain recs).months := by have := months_pos' (oGrain recs); omega
  have pn' : 0 < n' := by rw [hn']; have := months_pos' (dGrain recs); omega
  have hqpos : 1 ≤ q := by
    rcases Nat.eq_zero_or_pos q with h0 | h0
    · rw [h0] at hq; omega
    · exact h0
  have hdiv : (oGrain recs).months / n' = q := by rw [hq]; exact Nat.mul_div_cancel_left _ pn'
  rw [hdiv]
  have hdg : (finer (oGrain recs) (dGrain recs)).months = n' := by
    rw [hn'] at hq ⊢
    have hdv : (dGrain recs).months ∣ (oGrain recs).months := ⟨q, hq⟩
    revert hdv
    generalize oGrain recs = a
    generalize dGrain recs = b
    cases a <;> cases b <;> decide
  have hdg' : (built cols keyLabels cum tr recs omin omax dmin dmax).dgrain.months = n' := hdg
  -- the first development period
  have hdmin : dmin = omin + n' - 1 := by
    obtain ⟨r, hr, h1, h2, h3⟩ := hfirst
    have hv := valid_of (tr := tr) (recs := recs) r h3
    have hs := h.omin_le r hr hv
    have hse := le_end (tr := tr) (recs := recs) r
    have hel := end_lt (tr := tr) (recs := recs) r
    have hsl := start_le (tr := tr) (recs := recs) r
    rw [← hn'] at hel
    obtain ⟨rx, hrx, -, erx⟩ := h.dmax_mem
    have hd1 := end_dvd (tr := tr) (recs := recs) r rx
    rw [erx, ← hn'] at hd1
    have hd2 : (n' : Int) ∣ endOf tr recs r + 1 - omin - n' := by
      have : endOf tr recs r + 1 - omin - n' = (endOf tr recs r - dmax) + (dmax + 1 - omin) - n' := by
        ring
      rw [this]
      exact dvd_sub (dvd_add hd1 hclose) dvd_rfl
    have hz := Int.eq_zero_of_abs_lt_dvd hd2 (by rw [abs_lt]; constructor <;> omega)
    have hle := h.dmin_le r hr hv
    obtain ⟨rm, hrm, hrmv, erm⟩ := h.dmin_mem
    have hsm := h.omin_le rm hrm hrmv
    have hsv : startOf tr recs rm ≤ endOf tr recs rm := hrmv
    have hd3 := end_dvd (tr := tr) (recs := recs) rm r
    rw [← hn'] at hd3
    have hz3 := Int.eq_zero_of_abs_lt_dvd hd3 (by rw [abs_lt]; constructor <;> omega)
    omega
  obtain ⟨D, hD⟩ : ∃ D : Nat, dmax + 1 = omin + D * n' := by
    have := h.d_le
    obtain ⟨D, hD⟩ := steps (n := n') (a := omin) (b := dmax + 1) (by omega) (by omega) hclose
    exact ⟨D, hD⟩
  have hlen := h.built_odims (cols := cols) (keyLabels := keyLabels) (cum := cum) hc
  set t := built cols keyLabels cum tr recs omin omax dmin dmax with ht
  -- the last origin starts before the last development period closes
  have hrec : q * (t.odims.length - 1) < D := by
    have := (h.origin (cols := cols) (keyLabels := keyLabels) (cum := cum) hc
      (o := t.odims.length - 1) (by rw [← ht]; omega)).2
    rw [hq] at this
    by_contra hcon
    have h1 : D * n' ≤ q * (t.odims.length - 1) * n' := Nat.mul_le_mul_right _ (not_lt.mp hcon)
    have h2 : q * (t.odims.length - 1) * n' = (t.odims.length - 1) * (n' * q) := by ring
    have h3 : ((D * n' : Nat) : Int) ≤ ((t.odims.length - 1 : Nat) : Int) * ((n' * q : Nat) : Int) := by
      rw [← Nat.cast_mul, ← h2]; exact_mod_cast h1
    push_cast at h3 this hD
    omega
  have hD2 : 2 ≤ D := by
    have : 1 * 1 ≤ q * (t.odims.length - 1) := Nat.mul_le_mul hqpos (by omega)
    omega
  have hds : ∀ x, x ∈ periods (dGrain recs) dmin dmax ↔
      dmin ≤ x ∧ x ≤ dmax ∧ (n' : Int) ∣ x - dmin := fun x => by
    rw [mem_periods h.d_le h.d_dvd, hn']
  have homin : omin ∈ periods (oGrain recs) omin omax :=
    (mem_periods h.o_le h.o_dvd).mpr ⟨le_refl _, h.o_le, by simp⟩
  have hlt : dmin < dmax := by
    have : 2 * n' ≤ D * n' := Nat.mul_le_mul_right _ hD2
    have : ((2 * n' : Nat) : Int) ≤ ((D * n' : Nat) : Int) := by exact_mod_cast this
    push_cast at this
    omega
  have hisval : t.isVal = false := by
    cases hv : t.isVal
    · rfl
    · exfalso
      have hle : ((dateAxes (oGrain recs) (dGrain recs) omin omax dmin dmax).map
          fun p => p.2).dedup.length ≤ 1 := not_lt.mp (of_decide_eq_true hv)
      have m1 : dmin ∈ ((dateAxes (oGrain recs) (dGrain recs) omin omax dmin dmax).map
          fun p => p.2).dedup := List.mem_dedup.mpr (List.mem_map.mpr ⟨(omin, dmin),
            (Span.mem_axes _ _).mpr ⟨homin, (hds _).mpr ⟨le_refl _, hlt.le, by simp⟩, by omega⟩,
            rfl⟩)
      have m2 : dmax ∈ ((dateAxes (oGrain recs) (dGrain recs) omin omax dmin dmax).map
          fun p => p.2).dedup := List.mem_dedup.mpr (List.mem_map.mpr ⟨(omin, dmax),
            (Span.mem_axes _ _).mpr ⟨homin, h.dmax_per, by omega⟩, rfl⟩)
      generalize ((dateAxes (oGrain recs) (dGrain recs) omin omax dmin dmax).map
          fun p => p.2).dedup = l at hle m1 m2
      match l, hle, m1, m2 with
      | [x], _, m1, m2 => rw [List.mem_singleton] at m1 m2; omega
      | x :: y :: l, hle, _, _ => simp at hle
  have hdd : t.ddims = (List.range D).map fun d : Nat => (((d + 1) * n' : Nat) : Int) := by
    rcases ages_or cols keyLabels cum tr recs omin omax dmin dmax with ⟨hv', e'⟩ | ⟨hv', e'⟩
    · rw [← ht, hisval] at hv'; cases hv'
    · rw [ht, e']
      refine List.Pairwise.eq_of_mem_iff (groupKeys_sorted _) ?_ fun x => ?_
      · rw [List.pairwise_map]
        refine List.pairwise_lt_range.imp fun {i j} hij => ?_
        exact_mod_cast Nat.mul_lt_mul_of_pos_right (by omega) pn'
      · rw [mem_groupKeys]
        simp only [List.mem_map, List.mem_range, Prod.exists]
        constructor
        · rintro ⟨o, d, hp, rfl⟩
          obtain ⟨h1, h2, h3⟩ := (Span.mem_axes o d).mp hp
          obtain ⟨h4, h5, h6⟩ := (mem_periods h.o_le h.o_dvd).mp h1
          obtain ⟨h7, h8, h9⟩ := (hds d).mp h2
          have hdvd1 : (n' : Int) ∣ o - omin := dvd_trans ⟨q, by rw [hq]; push_cast; ring⟩ h6
          have hdvd2 : (n' : Int) ∣ d - o + 1 := by
            have : d - o + 1 = (d - dmin) - (o - omin) + n' := by rw [hdmin]; ring
            rw [this]
            exact dvd_add (dvd_sub h9 hdvd1) dvd_rfl
          obtain ⟨k, hk⟩ := steps (n := n') (a := 0) (b := d - o + 1) (by omega) (by omega)
            (by simpa using hdvd2)
          rw [zero_add] at hk
          have hk0 : k ≠ 0 := by
            rintro rfl
            simp at hk
            omega
          have hkD : k ≤ D := by
            by_contra hcon
            have h1 : ((D : Int) + 1) * n' ≤ k * n' :=
              mul_le_mul_of_nonneg_right (by omega) (by omega)
            rw [add_mul] at h1
            omega
          refine ⟨k - 1, by omega, ?_⟩
          rw [hk, Nat.sub_add_cancel (by omega)]
          push_cast
          ring
        · rintro ⟨k, hk, rfl⟩
          refine ⟨omin, omin + ((k + 1) * n' : Nat) - 1, (Span.mem_axes _ _).mpr
            ⟨homin, (hds _).mpr ⟨?_, ?_, ?_⟩, ?_⟩, by ring⟩
          · rw [hdmin]; push_cast
            have : (0 : Int) ≤ k * n' := by positivity
            rw [add_mul]; omega
          · have : (k + 1) * n' ≤ D * n' := Nat.mul_le_mul_right _ hk
            have : (((k + 1) * n' : Nat) : Int) ≤ ((D * n' : Nat) : Int) := by exact_mod_cast this
            push_cast at this ⊢
            omega
          · rw [hdmin]
            exact ⟨k, by push_cast; ring⟩
          · have : 1 ≤ (k + 1) * n' := Nat.mul_pos (by omega) pn'
            omega
  have hDl : t.ddims.length = D := by rw [hdd]; simp
  have hvdt : t.vd = dmax := rfl
  rw [hDl]
  have hshortD : D * n' < 9999 := by
    have hm : ((D * n' : Nat) : Int) ∈ t.ddims := by
      rw [hdd]
      exact List.mem_map.mpr ⟨D - 1, List.mem_range.mpr (by omega), by
        rw [Nat.sub_add_cancel (by omega)]⟩
    rcases ages_or cols keyLabels cum tr recs omin omax dmin dmax with ⟨hv', e'⟩ | ⟨hv', e'⟩
    · rw [← ht, hisval] at hv'; cases hv'
    · rw [ht, e'] at hm
      have := (h.age_bound hshort hm).2
      omega
  refine {
    wf := hprop.wf
    finite := hprop.finite
    isVal := hisval
    index_pos := ?_
    columns_pos := List.length_pos_of_ne_nil hcols
    two_origins := htwo
    period := hqpos
    recent := hrec
    odims := ?_
    ddims := by rw [hdg', hdd]
    vd := by rw [hdg', hvdt]; push_cast; omega
    short := by rw [hdg']; exact hshortD
    early := hprop.dated hisval
    known := ?_ }
  · obtain ⟨r, hr, hv, -⟩ := h.omin_mem
    exact List.length_pos_of_mem ((mem_firstSeen _ _).mpr (List.mem_map.mpr
      ⟨rowKey tr recs r, (mem_rows _).mpr ⟨r, hr, hv, rfl⟩, rfl⟩))
  · rw [hdg']
    refine List.ext_getElem (by simp) fun o h1 h2 => ?_
    have := (h.origin (cols := cols) (keyLabels := keyLabels) (cum := cum) hc (o := o) h1).1
    rw [List.getD_eq_getElem _ _ h1] at this
    rw [List.getElem_map, List.getElem_range]
    refine this.trans ?_
    rw [hq]; push_cast; ring
  · intro i hi c hcl o ho d hd hgt
    refine hprop.known i hi c hcl o ho d (by rw [← hDl] at hd; exact hd) ?_
    have hv := built_valuation (cols := cols) (keyLabels := keyLabels) (cum := cum) h hc hshort
      (o := o) (d := d) ho (by rw [← ht, hDl]; exact hd)
    rw [← ht, hisval, if_neg (by simp)] at hv
    rw [hv, hvdt, hdd, List.getD_eq_getElem _ _ (by simpa using hd), List.getElem_map,
      List.getElem_range, hq]
    have h1 : (D + 1) * n' ≤ (q * o + d + 1) * n' := Nat.mul_le_mul_right _ (by omega)
    have h2 : (((D + 1) * n' : Nat) : Int) ≤ (((q * o + d + 1) * n' : Nat) : Int) := by
      exact_mod_cast h1
    have h3 : (((q * o + d + 1) * n' : Nat) : Int) =
        o * ((n' * q : Nat) : Int) + (((d + 1) * n' : Nat) : Int) := by push_cast; ring
    have h4 : (((D + 1) * n' : Nat) : Int) = D * n' + n' := by push_cast; ring
    omega

/-- **C16 (standard triangles), partial: calendar origin periods.**  When development periods divide
origin periods and close with them, and some record of the first origin falls in its first
development period, the triangle is regular in the sense of `Tri.Standard`, which is what C56 asks of
its input. -/
theorem _root_.CL.C16_standard_partial {t : Tri K}
    (e : construct cols keyLabels cum tr recs = .ok t) (hc : Calendar tr recs)
    (hshort : ∀ r ∈ recs, ∀ s ∈ recs, r.dev.month - s.origin.month < 9000)
    (hfin : ∀ r ∈ recs, ∀ c < cols.length, (r.amount c).NoInf)
    {n' : Nat} (hn' : n' = (getGrain (recs.map fun r => r.dev.month)).months)
    (hdvd : n' ∣ t.ograin.months) (hclose : (n' : Int) ∣ t.vd + 1 - t.odims.getD 0 0)
    (hfirst : ∃ r ∈ recs, r.origin.month < t.odims.getD 0 0 + t.ograin.months ∧
      r.dev.month < t.odims.getD 0 0 + n' ∧ r.origin.month ≤ r.dev.month)
    (htwo : 2 ≤ t.odims.length) (hcols : cols ≠ []) (hcum : cum ≠ some false) :
    Tri.Standard t (t.odims.getD 0 0) t.odims.length t.ddims.length (t.ograin.months / n') := by
  have hg := C16_grid_partial e hc hshort hfin hn' hdvd hclose hfirst htwo hcols
  obtain ⟨omin, omax, dmin, dmax, h, -, -, hult, rfl⟩ := construct_ok e
  exact { hg with
    cumulative := hcum
    noPattern := rfl
    multiplicative := rfl }

namespace C16

/-- First days of January 2000, 2001 and 2002. -/
def y (k : Int) : Date := ⟨12 * (2000 + k), 1⟩
/-- Ends of December 2000, 2001 and 2002. -/
def e (k : Int) : Date := ⟨12 * (2000 + k) + 11, 31⟩

/-- Records in no particular order, two of them for the same cell, one of them with its development
before its origin. -/
def data : List (Rec ℚ) :=
  [⟨["b"], y 1, e 2, fun _ => .fin 7⟩, ⟨["a"], y 0, e 1, fun _ => .fin 5⟩,
   ⟨["a"], y 0, e 0, fun _ => .fin 3⟩, ⟨["a"], y 0, e 1, fun _ => .fin 2⟩,
   ⟨["a"], y 2, e 0, fun _ => .fin 100⟩]

/-- The triangle: origin 2002 without records is there; the bad record is not. -/
theorem example_labels : (construct ["x"] ["k"] (some false) true data).toOption.map
    (fun t => (t.kdims, t.odims, t.ddims, t.isVal)) =
    some ([["a"], ["b"]], [24000, 24012, 24024], [12, 24, 36], false) := by decide +kernel
theorem example_grains : (construct ["x"] ["k"] (some false) true data).toOption.map
    (fun t => (t.ograin, t.dgrain, t.vd)) = some (.Y, .Y, 24035) := by decide +kernel
theorem example_cells : (construct ["x"] ["k"] (some false) true data).toOption.map
    (fun t => (t.values.get 0 0 0 0, t.values.get 0 0 0 1, t.values.get 1 0 1 1,
      t.values.get 0 0 2 0)) = some (.fin 3, .fin 7, .fin 7, .nan) := by decide +kernel
theorem example_calendar : Calendar true data := by
  unfold Calendar; decide +kernel

/-- Fiscal years from July to June. -/
def fiscal : List (Rec ℚ) :=
  [⟨["a"], ⟨24006, 1⟩, ⟨24017, 30⟩, fun _ => .fin 10⟩, ⟨["a"], ⟨24006, 1⟩, ⟨24029, 30⟩, fun _ => .fin 20⟩,
   ⟨["a"], ⟨24018, 1⟩, ⟨24029, 30⟩, fun _ => .fin 30⟩]

theorem fiscal_labels : (construct ["x"] ["k"] (some false) true fiscal).toOption.map
    (fun t => (t.odims, t.ddims, t.isVal, t.vd)) =
    some ([24000, 24012, 24024], [12, 24], false, 24029) := by decide +kernel
theorem fiscal_cells : (construct ["x"] ["k"] (some false) true fiscal).toOption.map
    (fun t => t.values.get 0 0 0 0) = some (.fin 10) := by decide +kernel

end C16

/-- **C16, refuted without calendar periods.**  Origin years from July to June, valued in June 2001
and 2002, are relabelled as the calendar years 2000, 2001 and 2002
(`core/triangle.py:213-230` compares with calendar periods), and the cell of origin 2000 at 12 months
holds an amount that no record at the end of 2000 accounts for. -/
theorem _root_.CL.C16_fiscal_false : ¬ ∀ (cols keyLabels : List String) (cum : Option Bool)
    (tr : Bool) (recs : List (Rec ℚ)) (t : Tri ℚ),
    construct cols keyLabels cum tr recs = .ok t →
    (∀ r ∈ recs, ∀ s ∈ recs, r.dev.month - s.origin.month < 9000) →
    (∀ r ∈ recs, r.origin.month ≤ r.dev.month) → ∀ i c o d : Nat,
    o < t.odims.length → d < t.ddims.length →
    t.values.get i c o d = (((recs.filter fun r : Rec ℚ => decide (t.kdims[i]? = some r.key ∧
      Belongs t (getGrain (recs.map fun r => r.dev.month)).months r o d)).map
        fun r : Rec ℚ => (r.amount c).nan0).sum).numToNan := by
  intro h
  have hl := C16.fiscal_labels
  have hcl := C16.fiscal_cells
  cases e : construct ["x"] ["k"] (some false) true C16.fiscal with
  | error x => rw [e] at hl; cases hl
  | ok t =>
    rw [e] at hl hcl
    simp only [Except.toOption, Option.map_some, Option.some.injEq, Prod.mk.injEq] at hl hcl
    obtain ⟨e2, e3, e4, e6⟩ := hl
    have h1 := h _ _ _ _ _ t e (by decide) (by decide) 0 0 0 0 (by rw [e2]; decide)
      (by rw [e3]; decide)
    have hval : t.valuation 0 0 = 24011 := by
      unfold Tri.valuation
      rw [e2, e3, e4, e6]
      decide
    have hnil : (C16.fiscal.filter fun r : Rec ℚ => decide (t.kdims[0]? = some r.key ∧
      Belongs t (getGrain (C16.fiscal.map fun r => r.dev.month)).months r 0 0)) = [] := by
      rw [List.filter_eq_nil_iff]
      intro r hr hd
      obtain ⟨-, -, -, -, h4, -⟩ := of_decide_eq_true hd
      rw [hval] at h4
      have : ∀ r ∈ C16.fiscal, ¬ r.dev.month ≤ 24011 := by decide
      exact this r hr h4
    rw [hcl, hnil] at h1
    have : ((Num.fin 10 : Num ℚ)) = .nan := h1.trans Num.numToNan_fin_zero
    cases this

end Con
end CL
