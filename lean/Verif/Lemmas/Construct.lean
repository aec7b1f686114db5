import Verif.Model.Construct
import Verif.Lemmas.Along
import Verif.Spec.Standard
import Mathlib.Algebra.BigOperators.Group.List.Basic
import Mathlib.Tactic.Ring
import Mathlib.Tactic.Linarith

set_option linter.unusedSectionVars false

namespace CL
namespace Con
variable {K : Type} [Field K] [LinearOrder K] [IsStrictOrderedRing K]

theorem findIdx_some {α : Type} [BEq α] [LawfulBEq α] {l : List α} (hn : l.Nodup) (x : α) (i : Nat) :
    l.findIdx? (· == x) = some i ↔ l[i]? = some x := by
  rw [List.findIdx?_eq_some_iff_getElem]
  constructor
  · rintro ⟨h, e, -⟩
    rw [List.getElem?_eq_getElem h]
    simpa using e
  · intro h
    obtain ⟨hi, e⟩ := List.getElem?_eq_some_iff.mp h
    refine ⟨hi, by simpa using e, fun j hj => ?_⟩
    simp only [beq_iff_eq]
    rw [← e]
    intro e'
    have := (List.Nodup.getElem_inj_iff hn).mp e'
    omega

theorem sum_ite_nodup {κ M : Type} [DecidableEq κ] [AddCommMonoid M] (a : κ) (x : M) : ∀ l : List κ,
    l.Nodup → (l.map fun k => if a = k then x else 0).sum = if a ∈ l then x else 0
  | [], _ => by simp
  | k :: l, hn => by
    have ⟨h1, h2⟩ := List.nodup_cons.mp hn
    rw [List.map_cons, List.sum_cons, sum_ite_nodup a x l h2]
    by_cases h : a = k
    · subst h; simp [h1]
    · simp [h]

theorem sum_group {κ α M : Type} [DecidableEq κ] [BEq κ] [LawfulBEq κ] [AddCommMonoid M] (l : List κ) (hn : l.Nodup)
    (key : α → κ) (f : α → M) : ∀ rs : List α,
    (l.map fun k => ((rs.filter fun r => key r == k).map f).sum).sum =
      ((rs.filter fun r => decide (key r ∈ l)).map f).sum
  | [] => by simp
  | r :: rs => by
    have ih := sum_group l hn key f rs
    have step : (l.map fun k => (((r :: rs).filter fun r => key r == k).map f).sum) =
        l.map fun k => (if key r = k then f r else 0) +
          ((rs.filter fun r => key r == k).map f).sum := by
      refine List.map_congr_left fun k _ => ?_
      rw [List.filter_cons]
      by_cases h : key r = k <;> simp [h]
    rw [step, List.sum_map_add, ih, List.filter_cons, sum_ite_nodup (key r) (f r) l hn]
    by_cases h : key r ∈ l <;> simp [h]

theorem mem_firstSeen {α : Type} [DecidableEq α] (l : List α) (x : α) : x ∈ firstSeen l ↔ x ∈ l := by
  unfold firstSeen; simp

theorem nodup_firstSeen {α : Type} [DecidableEq α] (l : List α) : (firstSeen l).Nodup := by
  unfold firstSeen; rw [List.nodup_reverse]; exact List.nodup_dedup _

theorem months_pos' (g : Grain) : (0 : Int) < g.months := by cases g <;> decide

theorem length_periods (g : Grain) (a b : Int) :
    (periods g a b).length = ((b - a) / g.months + 1).toNat := by unfold periods; simp

theorem getD_periods {g : Grain} {a b : Int} {k : Nat} (h : k < (periods g a b).length) :
    (periods g a b)[k]? = some (a + k * g.months) := by
  rw [length_periods] at h
  unfold periods
  simp [h]

theorem length_periods_aligned {g : Grain} {a b : Int} {k : Nat} (h : b = a + k * g.months) :
    (periods g a b).length = k + 1 := by
  have hp := months_pos' g
  rw [length_periods, h]
  have : (a + k * g.months - a) / (g.months : Int) = k := by
    rw [add_sub_cancel_left]
    exact Int.mul_ediv_cancel _ (by omega)
  rw [this]
  omega

theorem steps {n a b : Int} (hn : 0 < n) (h : a ≤ b) (hd : n ∣ b - a) : ∃ k : Nat, b = a + k * n := by
  obtain ⟨q, hq⟩ := hd
  have : 0 ≤ q := by
    by_contra hc
    have := mul_neg_of_pos_of_neg hn (not_le.mp hc)
    omega
  refine ⟨q.toNat, ?_⟩
  rw [Int.toNat_of_nonneg this, mul_comm]
  omega

theorem mem_periods {g : Grain} {a b x : Int} (hab : a ≤ b) (hd : (g.months : Int) ∣ b - a) :
    x ∈ periods g a b ↔ a ≤ x ∧ x ≤ b ∧ (g.months : Int) ∣ x - a := by
  have hp := months_pos' g
  obtain ⟨k, hk⟩ := steps hp hab hd
  have hl := length_periods_aligned hk
  constructor
  · intro h
    obtain ⟨j, hj, e⟩ := List.mem_iff_getElem.mp h
    have e' := getD_periods hj
    rw [List.getElem?_eq_getElem hj, e] at e'
    simp only [Option.some.injEq] at e'
    rw [hl] at hj
    have h1 : (j : Int) * g.months ≤ k * g.months :=
      mul_le_mul_of_nonneg_right (by omega) hp.le
    have h2 : (0 : Int) ≤ j * g.months := mul_nonneg (by omega) hp.le
    refine ⟨by omega, by omega, ⟨j, ?_⟩⟩
    rw [e', mul_comm]
    omega
  · rintro ⟨h1, h2, h3⟩
    obtain ⟨j, hj⟩ := steps hp h1 h3
    have hjk : j < k + 1 := by
      by_contra hc
      have : ((k + 1 : Nat) : Int) * g.months ≤ j * g.months :=
        mul_le_mul_of_nonneg_right (by omega) hp.le
      push_cast at this
      rw [add_mul] at this
      omega
    have := getD_periods (g := g) (a := a) (b := b) (k := j) (by omega)
    rw [← hj] at this
    exact List.mem_of_getElem? this

theorem periods_sorted (g : Grain) (a b : Int) : (periods g a b).Pairwise (· < ·) := by
  have hp := months_pos' g
  unfold periods
  rw [List.pairwise_map]
  refine List.pairwise_lt_range.imp fun {i j} hij => ?_
  have : (i : Int) * g.months < j * g.months := mul_lt_mul_of_pos_right (by omega) hp
  omega

theorem toStart_spec (g : Grain) (e m : Int) : toStart g e m ≤ m ∧ m < toStart g e m + g.months ∧
    (g.months : Int) ∣ toStart g e m - (e + 1) := by
  have hp := months_pos' g
  unfold toStart
  have h1 := Int.emod_nonneg (m - (e + 1)) hp.ne'
  have h2 := Int.emod_lt_of_pos (m - (e + 1)) hp
  refine ⟨by omega, by omega, ?_⟩
  have : m - (m - (e + 1)) % g.months - (e + 1) = (m - (e + 1)) - (m - (e + 1)) % g.months := by ring
  rw [this]
  exact Int.dvd_self_sub_emod

theorem toEnd_spec (g : Grain) (e m : Int) : m ≤ toEnd g e m ∧ toEnd g e m < m + g.months ∧
    (g.months : Int) ∣ toEnd g e m - e := by
  have hp := months_pos' g
  unfold toEnd
  have h1 := Int.emod_nonneg (e - m) hp.ne'
  have h2 := Int.emod_lt_of_pos (e - m) hp
  refine ⟨by omega, by omega, ?_⟩
  have : m + (e - m) % g.months - e = -((e - m) - (e - m) % g.months) := by ring
  rw [this, Int.dvd_neg]
  exact Int.dvd_self_sub_emod

variable {tr : Bool} {recs : List (Rec K)}

theorem start_le (r : Rec K) : startOf tr recs r ≤ r.origin.month := (toStart_spec _ _ _).1
theorem lt_start (r : Rec K) : r.origin.month < startOf tr recs r + (oGrain recs).months :=
  (toStart_spec _ _ _).2.1
theorem start_dvd (r s : Rec K) :
    ((oGrain recs).months : Int) ∣ startOf tr recs r - startOf tr recs s := by
  have h1 := (toStart_spec (oGrain recs) (originEnd (oGrain recs) tr (recs.map Rec.origin))
    r.origin.month).2.2
  have h2 := (toStart_spec (oGrain recs) (originEnd (oGrain recs) tr (recs.map Rec.origin))
    s.origin.month).2.2
  have := dvd_sub h1 h2
  rwa [sub_sub_sub_cancel_right] at this

theorem le_end (r : Rec K) : r.dev.month ≤ endOf tr recs r := (toEnd_spec _ _ _).1
theorem end_lt (r : Rec K) : endOf tr recs r < r.dev.month + (dGrain recs).months :=
  (toEnd_spec _ _ _).2.1
theorem end_dvd (r s : Rec K) :
    ((dGrain recs).months : Int) ∣ endOf tr recs r - endOf tr recs s := by
  have h1 := (toEnd_spec (dGrain recs) (devEnd (dGrain recs) tr (recs.map Rec.dev))
    r.dev.month).2.2
  have h2 := (toEnd_spec (dGrain recs) (devEnd (dGrain recs) tr (recs.map Rec.dev))
    s.dev.month).2.2
  have := dvd_sub h1 h2
  rwa [sub_sub_sub_cancel_right] at this

/-- A row survives the aggregation. -/
def Valid (tr : Bool) (recs : List (Rec K)) (r : Rec K) : Prop := startOf tr recs r ≤ endOf tr recs r

instance (tr : Bool) (recs : List (Rec K)) (r : Rec K) : Decidable (Valid tr recs r) :=
  inferInstanceAs (Decidable (_ ≤ _))

theorem mem_rows (k : RowKey) : k ∈ rows tr recs ↔
    ∃ r ∈ recs, Valid tr recs r ∧ rowKey tr recs r = k := by
  unfold rows
  rw [List.mem_filter, mem_groupKeys, List.mem_map]
  constructor
  · rintro ⟨⟨r, hr, rfl⟩, h⟩
    exact ⟨r, hr, of_decide_eq_true h, rfl⟩
  · rintro ⟨r, hr, hv, rfl⟩
    exact ⟨⟨r, hr, rfl⟩, decide_eq_true hv⟩

theorem nodup_rows : (rows tr recs).Nodup :=
  ((groupKeys_sorted _).imp fun h => ne_of_lt h).filter _

/-- The sum of the aggregated rows with property `p` is the sum of the records with it. -/
theorem sum_rows (p : RowKey → Bool) (c : Nat) :
    (((rows tr recs).filter p).map fun k => total tr recs k c).sum =
      ((recs.filter fun r => decide (Valid tr recs r ∧ p (rowKey tr recs r) = true)).map
        fun r => (r.amount c).nan0).sum := by
  unfold total
  rw [sum_group _ (nodup_rows.filter _) (rowKey tr recs)]
  congr 2
  refine List.filter_congr fun r hr => ?_
  apply decide_eq_decide.mpr
  rw [List.mem_filter, mem_rows]
  constructor
  · rintro ⟨⟨r', hr', hv, e⟩, hp⟩
    have e1 : startOf tr recs r' = startOf tr recs r := congrArg (fun k : RowKey => k.1) e
    have e2 : endOf tr recs r' = endOf tr recs r := congrArg (fun k : RowKey => k.2.1) e
    refine ⟨?_, hp⟩
    unfold Valid at hv ⊢
    rwa [← e1, ← e2]
  · rintro ⟨hv, hp⟩
    exact ⟨⟨r, hr, hv, rfl⟩, hp⟩

/-- The extremes of the aggregated dates. -/
structure Span (tr : Bool) (recs : List (Rec K)) (omin omax dmin dmax : Int) : Prop where
  omin_mem : ∃ r ∈ recs, Valid tr recs r ∧ startOf tr recs r = omin
  omax_mem : ∃ r ∈ recs, Valid tr recs r ∧ startOf tr recs r = omax
  dmin_mem : ∃ r ∈ recs, Valid tr recs r ∧ endOf tr recs r = dmin
  dmax_mem : ∃ r ∈ recs, Valid tr recs r ∧ endOf tr recs r = dmax
  omin_le : ∀ r ∈ recs, Valid tr recs r → omin ≤ startOf tr recs r
  le_omax : ∀ r ∈ recs, Valid tr recs r → startOf tr recs r ≤ omax
  dmin_le : ∀ r ∈ recs, Valid tr recs r → dmin ≤ endOf tr recs r
  le_dmax : ∀ r ∈ recs, Valid tr recs r → endOf tr recs r ≤ dmax

/-- The triangle built from given extremes. -/
def built (cols keyLabels : List String) (cum : Option Bool) (tr : Bool) (recs : List (Rec K))
    (omin omax dmin dmax : Int) : Tri K :=
  let og := oGrain recs
  let dg := dGrain recs
  let rows := rows tr recs
  let axes := dateAxes og dg omin omax dmin dmax
  let kdims := firstSeen (rows.map fun k => k.2.2)
  let odims := groupKeys (axes.map fun p => p.1)
  let isVal := decide (¬ 1 < (axes.map fun p => p.2).dedup.length)
  let ddims := if isVal then [dmax] else groupKeys (axes.map fun p => p.2 - p.1 + 1)
  let check := periods og (toStart og 11 omin) (toStart og 11 dmax)
  let odims' := if check.length ≠ odims.length then check else odims
  { kdims := kdims
    keyLabels := keyLabels
    vdims := cols
    odims := odims'
    ddims := ddims
    isVal := isVal
    ograin := og
    dgrain := finer og dg
    vd := dmax
    isCum := cum
    isPattern := false
    isAdditive := none
    values := ⟨kdims.length, cols.length, odims'.length, ddims.length,
      cellOf rows (total tr recs) kdims odims ddims isVal⟩ }

theorem min_spec {l : List Int} {a : Int} (h : l.min? = some a) : a ∈ l ∧ ∀ b ∈ l, a ≤ b := by
  rwa [List.min?_eq_some_iff] at h

theorem max_spec {l : List Int} {a : Int} (h : l.max? = some a) : a ∈ l ∧ ∀ b ∈ l, b ≤ a := by
  rwa [List.max?_eq_some_iff] at h

theorem construct_ok {cols keyLabels : List String} {cum : Option Bool} {t : Tri K}
    (h : construct cols keyLabels cum tr recs = .ok t) :
    ∃ omin omax dmin dmax, Span tr recs omin omax dmin dmax ∧
      oGrain recs ≠ .S ∧ dGrain recs ≠ .S ∧ (∀ r ∈ recs, r.dev.month < ultVal - 12) ∧
      t = built cols keyLabels cum tr recs omin omax dmin dmax := by
  unfold construct at h
  simp only at h
  by_cases hS : oGrain recs = .S ∨ dGrain recs = .S ∨
      recs.any (fun r => decide (ultVal - 12 ≤ r.dev.month)) = true
  · rw [if_pos hS] at h; cases h
  · rw [if_neg hS] at h
    split at h
    · rename_i omin omax dmin dmax e1 e2 e3 e4
      have m : ∀ {f : RowKey → Int} {a : Int}, a ∈ (rows tr recs).map f →
          ∃ r ∈ recs, Valid tr recs r ∧ f (rowKey tr recs r) = a := by
        intro f a ha
        obtain ⟨k, hk, rfl⟩ := List.mem_map.mp ha
        obtain ⟨r, hr, hv, rfl⟩ := (mem_rows k).mp hk
        exact ⟨r, hr, hv, rfl⟩
      have m' : ∀ (f : RowKey → Int) (r), r ∈ recs → Valid tr recs r →
          f (rowKey tr recs r) ∈ (rows tr recs).map f := fun f r hr hv =>
        List.mem_map_of_mem ((mem_rows _).mpr ⟨r, hr, hv, rfl⟩)
      refine ⟨omin, omax, dmin, dmax, ⟨m (min_spec e1).1, m (max_spec e2).1, m (min_spec e3).1,
        m (max_spec e4).1, fun r hr hv => (min_spec e1).2 _ (m' (fun k => k.1) r hr hv),
        fun r hr hv => (max_spec e2).2 _ (m' (fun k => k.1) r hr hv),
        fun r hr hv => (min_spec e3).2 _ (m' (fun k => k.2.1) r hr hv),
        fun r hr hv => (max_spec e4).2 _ (m' (fun k => k.2.1) r hr hv)⟩, ?_, ?_, ?_, ?_⟩
      · exact fun e => hS (Or.inl e)
      · exact fun e => hS (Or.inr (Or.inl e))
      · intro r hr
        by_contra hc
        exact hS (Or.inr (Or.inr (List.any_eq_true.mpr ⟨r, hr, decide_eq_true (not_lt.mp hc)⟩)))
      · injection h with h
        exact h.symm
    · cases h

/-- The origin periods close with calendar periods: the day before the earliest origin date is in the
last month of a calendar year or quarter.  Always so with `trailing=False` and for months. -/
def Calendar (tr : Bool) (recs : List (Rec K)) : Prop :=
  tr = true → oGrain recs ≠ .M →
    (beforeMin (recs.map Rec.origin) + 1) % (oGrain recs).months = 0

theorem start_aligned (hc : Calendar tr recs) (r : Rec K) :
    ((oGrain recs).months : Int) ∣ startOf tr recs r := by
  have h1 := (toStart_spec (oGrain recs) (originEnd (oGrain recs) tr (recs.map Rec.origin))
    r.origin.month).2.2
  have h2 : ((oGrain recs).months : Int) ∣
      originEnd (oGrain recs) tr (recs.map Rec.origin) + 1 := by
    have h12 : ((oGrain recs).months : Int) ∣ 11 + 1 := by
      cases oGrain recs <;> decide
    unfold originEnd
    by_cases h : tr = true ∧ oGrain recs ≠ .M
    · rw [if_pos h]
      have := Int.dvd_of_emod_eq_zero (hc h.1 h.2)
      simp only
      split_ifs
      · exact h12
      · exact h12
      · exact this
    · rw [if_neg h]; exact h12
  have := dvd_add h1 h2
  rwa [sub_add_cancel] at this

theorem toStart_aligned {g : Grain} {m : Int} (h : (g.months : Int) ∣ m) : toStart g 11 m = m := by
  unfold toStart
  have h12 : (g.months : Int) ∣ 11 + 1 := by cases g <;> decide
  rw [Int.emod_eq_zero_of_dvd (dvd_sub h h12), sub_zero]

theorem toStart_dvd (g : Grain) (m : Int) : (g.months : Int) ∣ toStart g 11 m := by
  have h12 : (g.months : Int) ∣ 11 + 1 := by cases g <;> decide
  have := dvd_add (toStart_spec g 11 m).2.2 h12
  rwa [sub_add_cancel] at this

theorem le_toStart {g : Grain} {a m : Int} (ha : (g.months : Int) ∣ a) (h : a ≤ m) :
    a ≤ toStart g 11 m := by
  have hp := months_pos' g
  have h1 := (toStart_spec g 11 m).2.1
  by_contra hc
  have hd := dvd_sub ha (toStart_dvd g m)
  have := Int.le_of_dvd (by omega) hd
  omega

variable {omin omax dmin dmax : Int}

namespace Span

theorem o_le (h : Span tr recs omin omax dmin dmax) : omin ≤ omax := by
  obtain ⟨r, hr, hv, e⟩ := h.omax_mem
  rw [← e]; exact h.omin_le r hr hv

theorem d_le (h : Span tr recs omin omax dmin dmax) : dmin ≤ dmax := by
  obtain ⟨r, hr, hv, e⟩ := h.dmax_mem
  rw [← e]; exact h.dmin_le r hr hv

theorem le_vd (h : Span tr recs omin omax dmin dmax) : omax ≤ dmax := by
  obtain ⟨r, hr, hv, e⟩ := h.omax_mem
  rw [← e]; exact le_trans hv (h.le_dmax r hr hv)

theorem o_dvd (h : Span tr recs omin omax dmin dmax) :
    ((oGrain recs).months : Int) ∣ omax - omin := by
  obtain ⟨r, -, -, e⟩ := h.omax_mem
  obtain ⟨r', -, -, e'⟩ := h.omin_mem
  rw [← e, ← e']; exact start_dvd r r'

theorem d_dvd (h : Span tr recs omin omax dmin dmax) :
    ((dGrain recs).months : Int) ∣ dmax - dmin := by
  obtain ⟨r, -, -, e⟩ := h.dmax_mem
  obtain ⟨r', -, -, e'⟩ := h.dmin_mem
  rw [← e, ← e']; exact end_dvd r r'

theorem mem_o (h : Span tr recs omin omax dmin dmax) {r : Rec K} (hr : r ∈ recs)
    (hv : Valid tr recs r) : startOf tr recs r ∈ periods (oGrain recs) omin omax := by
  obtain ⟨r', -, -, e'⟩ := h.omin_mem
  exact (mem_periods h.o_le h.o_dvd).mpr ⟨h.omin_le r hr hv, h.le_omax r hr hv,
    by rw [← e']; exact start_dvd r r'⟩

theorem mem_d (h : Span tr recs omin omax dmin dmax) {r : Rec K} (hr : r ∈ recs)
    (hv : Valid tr recs r) : endOf tr recs r ∈ periods (dGrain recs) dmin dmax := by
  obtain ⟨r', -, -, e'⟩ := h.dmin_mem
  exact (mem_periods h.d_le h.d_dvd).mpr ⟨h.dmin_le r hr hv, h.le_dmax r hr hv,
    by rw [← e']; exact end_dvd r r'⟩

theorem dmax_per (h : Span tr recs omin omax dmin dmax) :
    dmax ∈ periods (dGrain recs) dmin dmax :=
  (mem_periods h.d_le h.d_dvd).mpr ⟨h.d_le, le_refl _, h.d_dvd⟩

theorem mem_axes (o d : Int) : (o, d) ∈ dateAxes (oGrain recs) (dGrain recs) omin omax dmin dmax ↔
    o ∈ periods (oGrain recs) omin omax ∧ d ∈ periods (dGrain recs) dmin dmax ∧ o ≤ d := by
  unfold dateAxes
  simp only [List.mem_filter, List.mem_flatMap, List.mem_map, Prod.mk.injEq, decide_eq_true_eq]
  constructor
  · rintro ⟨⟨o', ho, d', hd, rfl, rfl⟩, h⟩
    exact ⟨ho, hd, h⟩
  · rintro ⟨ho, hd, h⟩
    exact ⟨⟨o, ho, d, hd, rfl, rfl⟩, h⟩

theorem odims0 (h : Span tr recs omin omax dmin dmax) :
    groupKeys ((dateAxes (oGrain recs) (dGrain recs) omin omax dmin dmax).map fun p => p.1) =
      periods (oGrain recs) omin omax := by
  refine List.Pairwise.eq_of_mem_iff (groupKeys_sorted _) (periods_sorted _ _ _) fun o => ?_
  rw [mem_groupKeys, List.mem_map]
  constructor
  · rintro ⟨⟨o', d⟩, hp, rfl⟩
    exact ((mem_axes _ _).mp hp).1
  · intro ho
    refine ⟨(o, dmax), (mem_axes _ _).mpr ⟨ho, h.dmax_per, ?_⟩, rfl⟩
    exact le_trans ((mem_periods h.o_le h.o_dvd).mp ho).2.1 h.le_vd

/-- The last origin period that has started by the valuation date. -/
def last (recs : List (Rec K)) (dmax : Int) : Int := toStart (oGrain recs) 11 dmax

theorem aligned (h : Span tr recs omin omax dmin dmax) (hc : Calendar tr recs) : ((oGrain recs).months : Int) ∣ omin ∧
    ((oGrain recs).months : Int) ∣ omax := by
  obtain ⟨r, -, -, e⟩ := h.omin_mem
  obtain ⟨r', -, -, e'⟩ := h.omax_mem
  exact ⟨e ▸ start_aligned hc r, e' ▸ start_aligned hc r'⟩

theorem omax_le_last (h : Span tr recs omin omax dmin dmax) (hc : Calendar tr recs) : omax ≤ last recs dmax :=
  le_toStart (h.aligned hc).2 h.le_vd

theorem last_le : last recs dmax ≤ dmax := (toStart_spec _ _ _).1

theorem last_dvd (h : Span tr recs omin omax dmin dmax) (hc : Calendar tr recs) : ((oGrain recs).months : Int) ∣ last recs dmax - omin :=
  dvd_sub (toStart_dvd _ _) (h.aligned hc).1

variable {cols keyLabels : List String} {cum : Option Bool}

theorem built_odims (h : Span tr recs omin omax dmin dmax) (hc : Calendar tr recs) : (built cols keyLabels cum tr recs omin omax dmin dmax).odims =
      periods (oGrain recs) omin (last recs dmax) := by
  unfold built
  simp only
  rw [h.odims0, toStart_aligned (h.aligned hc).1]
  show (if (periods (oGrain recs) omin (last recs dmax)).length ≠ _ then _ else _) = _
  split_ifs with he
  · rfl
  · rw [not_not] at he
    obtain ⟨k, hk⟩ := steps (months_pos' _) h.o_le h.o_dvd
    obtain ⟨k', hk'⟩ := steps (months_pos' _) (le_trans h.o_le (h.omax_le_last hc))
      (h.last_dvd hc)
    rw [length_periods_aligned hk, length_periods_aligned hk'] at he
    have : k = k' := by omega
    rw [hk', hk, this]

/-- Every origin starts by the valuation date. -/
theorem origin (h : Span tr recs omin omax dmin dmax) (hc : Calendar tr recs) {o : Nat}
    (ho : o < (built cols keyLabels cum tr recs omin omax dmin dmax).odims.length) :
    (built cols keyLabels cum tr recs omin omax dmin dmax).odims.getD o 0 =
      omin + o * (oGrain recs).months ∧
    omin + o * (oGrain recs).months ≤ dmax := by
  rw [h.built_odims hc] at ho ⊢
  have e := getD_periods ho
  refine ⟨by rw [List.getD_eq_getElem?_getD, e]; rfl, ?_⟩
  have := (mem_periods (le_trans h.o_le (h.omax_le_last hc)) (h.last_dvd hc)).mp
    (List.mem_of_getElem? e)
  exact le_trans this.2.1 last_le

/-- The position of the origin period of a row. -/
theorem start_iff (h : Span tr recs omin omax dmin dmax) (hc : Calendar tr recs) {o : Nat}
    {r : Rec K} (hr : r ∈ recs) (hv : Valid tr recs r) :
    (periods (oGrain recs) omin omax)[o]? = some (startOf tr recs r) ↔
      startOf tr recs r = omin + o * (oGrain recs).months := by
  obtain ⟨k, hk⟩ := steps (months_pos' _) h.o_le h.o_dvd
  have hl := length_periods_aligned hk
  constructor
  · intro e
    obtain ⟨ho, -⟩ := List.getElem?_eq_some_iff.mp e
    rw [getD_periods ho] at e
    exact (Option.some.inj e).symm
  · intro e
    have hm := ((mem_periods h.o_le h.o_dvd).mp (h.mem_o hr hv)).2.1
    have ho : o < (periods (oGrain recs) omin omax).length := by
      rw [hl]
      by_contra hcon
      have := months_pos' (oGrain recs)
      have : ((k + 1 : Nat) : Int) * (oGrain recs).months ≤ o * (oGrain recs).months :=
        mul_le_mul_of_nonneg_right (by omega) (by omega)
      push_cast at this
      rw [add_mul] at this
      omega
    rw [getD_periods ho, e]

/-- Ages are positive and less than 9999 months. -/
theorem age_bound (h : Span tr recs omin omax dmin dmax)
    (hshort : ∀ r ∈ recs, ∀ s ∈ recs, r.dev.month - s.origin.month < 9000) {x : Int}
    (hx : x ∈ groupKeys ((dateAxes (oGrain recs) (dGrain recs) omin omax dmin dmax).map
      fun p => p.2 - p.1 + 1)) : 1 ≤ x ∧ x < 9999 := by
  rw [mem_groupKeys, List.mem_map] at hx
  obtain ⟨⟨o, d⟩, hp, rfl⟩ := hx
  obtain ⟨h1, h2, h3⟩ := (mem_axes o d).mp hp
  obtain ⟨r, hr, -, er⟩ := h.dmax_mem
  obtain ⟨s, hs, -, es⟩ := h.omin_mem
  have h4 := ((mem_periods h.o_le h.o_dvd).mp h1).1
  have h5 := ((mem_periods h.d_le h.d_dvd).mp h2).2.1
  have h6 := end_lt (tr := tr) (recs := recs) r
  have h7 := lt_start (tr := tr) (recs := recs) s
  have h8 := hshort r hr s hs
  have h9 : ((dGrain recs).months : Int) ≤ 12 := by cases dGrain recs <;> decide
  have h10 : ((oGrain recs).months : Int) ≤ 12 := by cases oGrain recs <;> decide
  simp only
  omega

end Span

end Con
end CL
