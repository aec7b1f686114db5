import Verif.Model.Filter
import Verif.Props.C14
import Verif.Spec.Filter

set_option linter.unusedSectionVars false

/-! # Lemmas on valuation filters -/

namespace CL
namespace Tri
variable {K : Type} [Field K] [LinearOrder K] [IsStrictOrderedRing K]

theorem getD_mem_dropLast {l : List Int} {d : Nat} (h : d + 1 < l.length) :
    l.getD d 0 ∈ l.dropLast := by
  rw [List.getD_eq_getElem _ _ (by omega)]
  have : d < l.dropLast.length := by simp; omega
  rw [← List.getElem_dropLast this]
  exact List.getElem_mem _

/-- The valuation of a cell in terms of its labels. -/
theorem valuation_label {isVal : Bool} {os ds : List Int} {v : Int}
    (h9 : isVal = false → (9999 : Int) ∉ ds.dropLast) {o d : Nat} (hd : d < ds.length) :
    valuationOf isVal os ds v o d =
      if isVal then ds.getD d 0 else if ds.getD d 0 = 9999 then ultVal
      else min (os.getD o 0) v + ds.getD d 0 - 1 := by
  unfold valuationOf
  cases hv : isVal with
  | true => simp
  | false =>
    simp only [Bool.false_eq_true, if_false]
    have hiff : (ds.getLast? = some 9999 ∧ d + 1 = ds.length) ↔ ds.getD d 0 = 9999 := by
      constructor
      · rintro ⟨h1, h2⟩
        rw [List.getLast?_eq_getElem?] at h1
        have : ds.length - 1 = d := by omega
        rw [this] at h1
        simp [List.getD_eq_getElem?_getD, h1]
      · intro h
        have hl : d + 1 = ds.length := by
          by_contra hne
          have := getD_mem_dropLast (l := ds) (d := d) (by omega)
          rw [h] at this
          exact h9 hv this
        refine ⟨?_, hl⟩
        rw [List.getLast?_eq_getElem?]
        have : ds.length - 1 = d := by omega
        rw [this]
        rw [List.getD_eq_getElem _ _ hd] at h
        simp [hd, h]
    by_cases hc : ds.getD d 0 = 9999
    · rw [if_pos (hiff.2 hc), if_pos hc]
    · rw [if_neg (fun h => hc (hiff.1 h)), if_neg hc]

theorem ult_dropLast_map {ds : List Int} (h9 : (9999 : Int) ∉ ds.dropLast) {pd : List Nat}
    (hs : pd.Pairwise (· < ·)) (hl : ∀ p ∈ pd, p < ds.length) :
    (9999 : Int) ∉ (pd.map (ds.getD · 0)).dropLast := by
  intro h
  obtain ⟨i, hi, e⟩ := List.getElem_of_mem h
  have hi' : i + 1 < pd.length := by simp at hi; omega
  rw [List.getElem_dropLast, List.getElem_map] at e
  have h1 : pd[i] < pd[i + 1] := List.pairwise_iff_getElem.1 hs i (i + 1) (by omega) hi' (by omega)
  have h2 := hl _ (List.getElem_mem hi')
  have h3 := getD_mem_dropLast (l := ds) (d := pd[i]) (by omega)
  rw [e] at h3
  exact h9 h3

theorem valuation_picked {t : Tri K} (ho : Ordered t) {pi pc po pd : List Nat} {v : Int}
    (hs : pd.Pairwise (· < ·)) (hl : ∀ p ∈ pd, p < t.ddims.length)
    (hpo : ∀ p ∈ po, p < t.odims.length)
    (hv : t.isVal = false → ∀ p ∈ po, t.odims.getD p 0 ≤ v) {o d : Nat} (hoo : o < po.length)
    (hd : d < pd.length) :
    (t.picked pi pc po pd v).valuation o d = t.valuation (po.getD o 0) (pd.getD d 0) := by
  have hpd : pd.getD d 0 < t.ddims.length := by
    rw [List.getD_eq_getElem _ _ hd]; exact hl _ (List.getElem_mem hd)
  have hmem : po.getD o 0 ∈ po := by
    rw [List.getD_eq_getElem _ _ hoo]; exact List.getElem_mem hoo
  show valuationOf t.isVal (po.map (t.odims.getD · 0)) (pd.map (t.ddims.getD · 0)) v o d =
    valuationOf t.isVal t.odims t.ddims t.vd _ _
  rw [valuation_label (fun h => ult_dropLast_map (ho h).2.2 hs hl) (by simpa using hd),
    valuation_label (fun h => (ho h).2.2) hpd, getD_map_getD _ _ _ _ hd,
    getD_map_getD _ _ _ _ hoo]
  cases hb : t.isVal with
  | true => rfl
  | false =>
    have h1 := hv hb _ hmem
    have h2 : t.odims.getD (po.getD o 0) 0 ≤ t.vd := by
      apply (ho hb).1
      rw [List.getD_eq_getElem _ _ (hpo _ hmem)]
      exact List.getElem_mem _
    simp only [Bool.false_eq_true, if_false, min_eq_left h1, min_eq_left h2]

theorem keyRows_pairwise (n m : Nat) (key : Nat → Nat → Bool) :
    (keyRows n m key).Pairwise (· < ·) := List.Pairwise.filter _ List.pairwise_lt_range

theorem keyCols_pairwise (n m : Nat) (key : Nat → Nat → Bool) :
    (keyCols n m key).Pairwise (· < ·) := List.Pairwise.filter _ List.pairwise_lt_range

theorem mem_keyRows {n m o : Nat} {key : Nat → Nat → Bool} :
    o ∈ keyRows n m key ↔ o < n ∧ ∃ d < m, key o d = true := by
  simp [keyRows]

theorem mem_keyCols {n m d : Nat} {key : Nat → Nat → Bool} :
    d ∈ keyCols n m key ↔ d < m ∧ ∃ o < n, key o d = true := by
  simp [keyCols]

/-- A strictly increasing list of positions is never a repetition. -/
theorem contig_increasing {n : Nat} {l : List Nat} (hne : l ≠ []) (hs : l.Pairwise (· < ·))
    (hl : ∀ p ∈ l, p < n) : ∃ k, contigSlice (.lst (l.map fun i : Nat => (i : Int))) = .ok k ∧
      k.positions n = .ok l ∧ (k.isSlice = true ↔ Even l) := by
  obtain ⟨k, h1, h2⟩ := contig_positions (n := n) (l := l.map fun i : Nat => (i : Int))
    (by simpa using hne)
    (by
      intro x hx
      obtain ⟨p, hp, rfl⟩ := List.mem_map.1 hx
      have := hl p hp
      omega)
    (by
      rintro ⟨h1, h2⟩
      match l, hs, h1, h2 with
      | [], _, h1, _ => simp at h1
      | [a], _, h1, _ => simp at h1
      | a :: b :: l, hs, _, h2 =>
        have := h2 a (by simp) b (by simp)
        have hab : a < b := by
          rw [List.pairwise_cons] at hs
          exact hs.1 b (by simp)
        omega)
  refine ⟨k, h1, by rw [h2, map_toNat_cast], ?_, ?_⟩
  · intro hk
    by_contra he
    rw [contig_uneven (by simpa using hne) he] at h1
    injection h1 with h1
    subst h1
    simp [Key.isSlice] at hk
  · rintro ⟨c, hc⟩
    exact contig_even hc h1

theorem positions_all' (n : Nat) : (Key.slc PySlice.all).positions n = .ok (List.range n) := by
  unfold Key.positions
  exact positions_all n

/-- `_slice_valuation` when the selected rows and columns are evenly spaced. -/
theorem filterMask_eq {t : Tri K} (key : Nat → Nat → Bool)
    (hr : keyRows t.values.d2 t.values.d3 key ≠ []) (hc : keyCols t.values.d2 t.values.d3 key ≠ [])
    (h : Even (keyRows t.values.d2 t.values.d3 key) ∧ Even (keyCols t.values.d2 t.values.d3 key)) :
    t.filterMask key =
      ({ t with
        vd := match (t.keptValuations key).max? with
          | none => t.vd
          | some m => min m t.vd
        values := { t.values with
          get := fun i c o d => (t.values.get i c o d * Num.ofBool (key o d)).numToNan } } :
        Tri K).pick (List.range t.values.d0) (List.range t.values.d1)
        (keyRows t.values.d2 t.values.d3 key) (keyCols t.values.d2 t.values.d3 key) := by
  obtain ⟨kr, r1, r2, r3⟩ := contig_increasing (n := t.values.d2) hr (keyRows_pairwise _ _ _)
    (fun p hp => (mem_keyRows.1 hp).1)
  obtain ⟨kc, c1, c2, c3⟩ := contig_increasing (n := t.values.d3) hc (keyCols_pairwise _ _ _)
    (fun p hp => (mem_keyCols.1 hp).1)
  unfold filterMask getIdx
  simp only [contig_slc, r1, c1, r2, c2, positions_all', bind, Except.bind]
  have e1 := r3.2 h.1
  have e2 := c3.2 h.2
  simp only [e1, e2, Bool.not_true, Bool.or_self, Bool.false_eq_true, if_false]
  rfl

/-- `_slice_valuation` when they are not. -/
theorem filterMask_uneven {t : Tri K} (key : Nat → Nat → Bool)
    (hr : keyRows t.values.d2 t.values.d3 key ≠ []) (hc : keyCols t.values.d2 t.values.d3 key ≠ [])
    (h : ¬ (Even (keyRows t.values.d2 t.values.d3 key) ∧
      Even (keyCols t.values.d2 t.values.d3 key))) : t.filterMask key = .error .valueError := by
  obtain ⟨kr, r1, r2, r3⟩ := contig_increasing (n := t.values.d2) hr (keyRows_pairwise _ _ _)
    (fun p hp => (mem_keyRows.1 hp).1)
  obtain ⟨kc, c1, c2, c3⟩ := contig_increasing (n := t.values.d3) hc (keyCols_pairwise _ _ _)
    (fun p hp => (mem_keyCols.1 hp).1)
  unfold filterMask getIdx
  simp only [contig_slc, r1, c1, r2, c2, positions_all', bind, Except.bind]
  have : (!kr.isSlice || !kc.isSlice) = true := by
    by_contra hh
    apply h
    simp at hh
    exact ⟨r3.1 hh.1, c3.1 hh.2⟩
  rw [if_pos this]

/-- `_slice_valuation` when nothing is selected. -/
theorem filterMask_empty {t : Tri K} (key : Nat → Nat → Bool)
    (hr : keyRows t.values.d2 t.values.d3 key = []) : t.filterMask key = .error .valueError := by
  unfold filterMask getIdx
  simp only [contig_slc, hr, List.map_nil, contigSlice, bind, Except.bind]

theorem mem_keptValuations {t : Tri K} {key : Nat → Nat → Bool} {v : Int} :
    v ∈ t.keptValuations key ↔ ∃ o d, o < t.odims.length ∧ d < t.ddims.length ∧ key o d = true ∧
      t.valuation o d = v := by
  simp only [keptValuations, List.mem_flatMap, List.mem_map, List.mem_range, List.mem_filter]
  constructor
  · rintro ⟨d, hd, o, ⟨ho, hk⟩, rfl⟩; exact ⟨o, d, ho, hd, hk, rfl⟩
  · rintro ⟨o, d, ho, hd, hk, rfl⟩; exact ⟨d, hd, o, ⟨ho, hk⟩, rfl⟩

theorem keyRows_ne_nil {n m : Nat} {key : Nat → Nat → Bool} :
    keyRows n m key ≠ [] ↔ keyCols n m key ≠ [] := by
  constructor
  · intro h
    obtain ⟨o, ho⟩ := List.exists_mem_of_ne_nil _ h
    obtain ⟨ho, d, hd, hk⟩ := mem_keyRows.1 ho
    exact List.ne_nil_of_mem (mem_keyCols.2 ⟨hd, o, ho, hk⟩)
  · intro h
    obtain ⟨d, hd⟩ := List.exists_mem_of_ne_nil _ h
    obtain ⟨hd, o, ho, hk⟩ := mem_keyCols.1 hd
    exact List.ne_nil_of_mem (mem_keyRows.2 ⟨ho, d, hd, hk⟩)

theorem mul_ofBool (x : Num K) (b : Bool) :
    (x * Num.ofBool b).numToNan = if b then x.numToNan else .nan := by
  cases b with
  | true =>
    cases x <;> simp [Num.ofBool, Num.pinf_mul_fin, Num.ninf_mul_fin, Num.infMul]
  | false =>
    cases x <;> simp [Num.ofBool, Num.pinf_mul_fin, Num.ninf_mul_fin, Num.infMul]

theorem at_getD {α : Type} (l : List α) (x : α) (ps : List Nat)
    (h : ∀ p ∈ ps, p < l.length) : At l (ps.map (l.getD · x)) ps := by
  refine ⟨by simp, ?_⟩
  intro j hj
  have := h _ (List.getElem_mem hj)
  simp [hj, List.getD_eq_getElem?_getD, this]

theorem filterMask_spec {t : Tri K} (wf : WF t) (ord : Ordered t)
    (hdt : t.isVal = false → t.vd ≤ ultVal) {key : Nat → Nat → Bool}
    (hr : keyRows t.values.d2 t.values.d3 key ≠ [])
    (er : Even (keyRows t.values.d2 t.values.d3 key))
    (ec : Even (keyCols t.values.d2 t.values.d3 key)) :
    ∃ u, t.filterMask key = .ok u ∧
      FilterSpec t u key (keyRows t.values.d2 t.values.d3 key) (keyCols t.values.d2 t.values.d3 key) ∧
      u.ograin = t.ograin ∧ u.dgrain = t.dgrain ∧ u.isCum = t.isCum ∧ u.isPattern = t.isPattern ∧
      u.keyLabels = t.keyLabels := by
  obtain ⟨w0, w1, w2, w3⟩ := wf
  have hc := keyRows_ne_nil.1 hr
  -- the latest kept valuation
  obtain ⟨o1, h1⟩ := List.exists_mem_of_ne_nil _ hr
  obtain ⟨ho1, d1, hd1, hk1⟩ := mem_keyRows.1 h1
  have hkv : t.keptValuations key ≠ [] :=
    List.ne_nil_of_mem (mem_keptValuations.2 ⟨o1, d1, by omega, by omega, hk1, rfl⟩)
  obtain ⟨m, hm⟩ : ∃ m, (t.keptValuations key).max? = some m := by
    cases h : (t.keptValuations key).max? with
    | none => exact absurd (List.max?_eq_none_iff.1 h) hkv
    | some m => exact ⟨m, rfl⟩
  have hm' := List.max?_eq_some_iff.1 hm
  have hmle : ∀ o d, o < t.odims.length → d < t.ddims.length → key o d = true →
      t.valuation o d ≤ m := fun o d ho hd hk =>
    hm'.2 _ (mem_keptValuations.2 ⟨o, d, ho, hd, hk, rfl⟩)
  have e := filterMask_eq key hr hc ⟨er, ec⟩
  simp only [hm] at e
  have hrl : ∀ p ∈ keyRows t.values.d2 t.values.d3 key, p < t.odims.length := fun p hp => by
    rw [← w2]; exact (mem_keyRows.1 hp).1
  have hcl : ∀ p ∈ keyCols t.values.d2 t.values.d3 key, p < t.ddims.length := fun p hp => by
    rw [← w3]; exact (mem_keyCols.1 hp).1
  -- kept origins are not after the new valuation date
  have hov : t.isVal = false → ∀ p ∈ keyRows t.values.d2 t.values.d3 key,
      t.odims.getD p 0 ≤ min m t.vd := by
    intro hv p hp
    obtain ⟨hp1, d, hd, hk⟩ := mem_keyRows.1 hp
    have hd' : d < t.ddims.length := by omega
    have ho : t.odims.getD p 0 ≤ t.vd := by
      apply (ord hv).1
      rw [List.getD_eq_getElem _ _ (by omega)]
      exact List.getElem_mem _
    have hle : t.valuation p d ≤ m := hmle p d (by omega) (by omega) hk
    have hval := valuation_label (os := t.odims) (v := t.vd) (o := p) (fun h => (ord h).2.2) hd'
    rw [hv] at hval
    have hval' : t.valuation p d = _ := (by rw [valuation, hv] : t.valuation p d =
      valuationOf false t.odims t.ddims t.vd p d).trans hval
    simp only [Bool.false_eq_true, if_false] at hval'
    refine le_min ?_ ho
    by_cases h9 : t.ddims.getD d 0 = 9999
    · rw [if_pos h9] at hval'
      have := hdt hv
      omega
    · rw [if_neg h9, min_eq_left ho] at hval'
      have h1d : 1 ≤ t.ddims.getD d 0 := by
        apply (ord hv).2.1
        rw [List.getD_eq_getElem _ _ hd']
        exact List.getElem_mem _
      omega
  generalize hrows : keyRows t.values.d2 t.values.d3 key = rows at *
  generalize hcols : keyCols t.values.d2 t.values.d3 key = cols at *
  have hri : rows.Pairwise (· < ·) := hrows ▸ keyRows_pairwise _ _ _
  have hci : cols.Pairwise (· < ·) := hcols ▸ keyCols_pairwise _ _ _
  rw [pick_eq _ _ _ _ _ (Or.inr hc)] at e
  have hvals : ∀ v, (t.isVal = false → ∀ p ∈ rows, t.odims.getD p 0 ≤ v) → ∀ o d, (ho : o < rows.length) →
      (hd : d < cols.length) →
      (t.picked (List.range t.values.d0) (List.range t.values.d1) rows cols v).valuation o d =
        t.valuation rows[o] cols[d] := by
    intro v hv o d ho hd
    rw [valuation_picked ord hci hcl hrl hv ho hd, List.getD_eq_getElem _ _ ho,
      List.getD_eq_getElem _ _ hd]
  have hvd : ∀ (obj : Tri K), obj.odims = t.odims → obj.ddims = t.ddims → obj.isVal = t.isVal →
      obj.vd = min m t.vd → Option.elim ((obj.picked (List.range t.values.d0) (List.range t.values.d1)
        rows cols (min m t.vd)).valuations.max?) (min m t.vd) (fun x => min x (min m t.vd)) = min m t.vd := by
    intro obj h1 h2 h3 h4
    have hvv : ∀ o d, (obj.picked (List.range t.values.d0) (List.range t.values.d1) rows cols
        (min m t.vd)).valuation o d = (t.picked (List.range t.values.d0) (List.range t.values.d1)
        rows cols (min m t.vd)).valuation o d := by
      intro o d
      show valuationOf obj.isVal (rows.map (obj.odims.getD · 0)) (cols.map (obj.ddims.getD · 0)) _ o d = _
      rw [h1, h2, h3]; rfl
    obtain ⟨om, dm, hom, hdm, hkm, hvm⟩ := mem_keptValuations.1 hm'.1
    have hmr : om ∈ rows := by rw [← hrows]; exact mem_keyRows.2 ⟨by omega, dm, by omega, hkm⟩
    have hmc : dm ∈ cols := by rw [← hcols]; exact mem_keyCols.2 ⟨by omega, om, by omega, hkm⟩
    obtain ⟨ro, hro, ero⟩ := List.getElem_of_mem hmr
    obtain ⟨cd, hcd, ecd⟩ := List.getElem_of_mem hmc
    have hin : m ∈ (obj.picked (List.range t.values.d0) (List.range t.values.d1) rows cols
        (min m t.vd)).valuations := by
      rw [mem_valuations]
      refine ⟨ro, cd, by simpa [picked] using hro, by simpa [picked] using hcd, ?_⟩
      rw [hvv, hvals _ hov ro cd hro hcd, ero, ecd, hvm]
    cases hx : (obj.picked (List.range t.values.d0) (List.range t.values.d1)
        rows cols (min m t.vd)).valuations.max? with
    | none => rfl
    | some x =>
      have := (List.max?_eq_some_iff.1 hx).2 _ hin
      simp only [Option.elim]
      omega
  have e2 : t.filterMask key = .ok (({ t with
        vd := min m t.vd
        values := { t.values with
          get := fun i c o d => (t.values.get i c o d * Num.ofBool (key o d)).numToNan } } :
        Tri K).picked (List.range t.values.d0) (List.range t.values.d1) rows cols (min m t.vd)) := by
    rw [e]
    exact congrArg (fun v => Except.ok (Tri.picked _ _ _ rows cols v)) (hvd _ rfl rfl rfl rfl)
  refine ⟨_, e2, ⟨hri, hci, ?_, ?_, ?_, ?_, ?_, ?_, ?_, rfl, ?_, ?_, ?_⟩, rfl, rfl, rfl, rfl, rfl⟩
  · intro o; rw [← hrows, mem_keyRows, w2, w3]
  · intro d; rw [← hcols, mem_keyCols, w2, w3]
  · refine ⟨?_, ?_, ?_, ?_⟩ <;> simp [picked, Arr.take]
  · show (List.range t.values.d0).map (t.kdims.getD · []) = t.kdims
    rw [w0]; exact map_getD_range _ _
  · show (List.range t.values.d1).map (t.vdims.getD · "") = t.vdims
    rw [w1]; exact map_getD_range _ _
  · exact at_getD _ _ _ hrl
  · exact at_getD _ _ _ hcl
  · intro i c o d hi hcc ho hd
    show (t.values.get (List.getD _ i 0) (List.getD _ c 0) (List.getD _ o 0) (List.getD _ d 0) *
      Num.ofBool (key (List.getD _ o 0) (List.getD _ d 0))).numToNan = _
    rw [mul_ofBool, getD_range _ _ hi, getD_range _ _ hcc, List.getD_eq_getElem _ _ ho,
      List.getD_eq_getElem _ _ hd]
  · intro o d ho hd
    exact hvals _ hov o d ho hd
  · exact ⟨m, mem_keptValuations.1 hm'.1, hmle, rfl⟩

/-- A list without gaps is evenly spaced. -/
theorem even_of_convex : ∀ {l : List Nat}, l.Pairwise (· < ·) →
    (∀ a ∈ l, ∀ b ∈ l, ∀ x, a < x → x < b → x ∈ l) → Even l := by
  intro l hs hc
  refine ⟨1, ?_⟩
  induction l with
  | nil => simp [diffs]
  | cons a l ih =>
    match l, ih, hs, hc with
    | [], _, _, _ => simp [diffs]
    | b :: l, ih, hs, hc =>
      rw [List.pairwise_cons] at hs
      intro d hd
      simp only [List.map_cons, diffs, List.mem_cons] at hd
      rcases hd with rfl | hd
      · have hab := hs.1 b (by simp)
        by_contra hne
        have hx : a + 1 ∈ a :: b :: l := hc a (by simp) b (by simp) (a + 1) (by omega) (by omega)
        simp only [List.mem_cons] at hx
        rcases hx with h | h | h
        · omega
        · omega
        · have := (List.pairwise_cons.1 hs.2).1 _ h
          omega
      · refine ih hs.2 ?_ d hd
        intro p hp q hq x h1 h2
        have hx := hc p (by simp [hp]) q (by simp [hq]) x h1 h2
        rcases List.mem_cons.1 hx with h | h
        · have := hs.1 p hp
          omega
        · exact h

end Tri
end CL
