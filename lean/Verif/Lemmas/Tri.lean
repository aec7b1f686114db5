import Verif.Model.Tri
import Verif.Lemmas.Slice
import Verif.Lemmas.Num
import Mathlib.Data.List.GetD

set_option linter.unusedSectionVars false

namespace CL
namespace Tri
variable {K : Type} [Field K] [LinearOrder K] [IsStrictOrderedRing K]

/-- Ordinary axes: no origin starts after the valuation date, ages are positive, and the
"ultimate" age 9999 can only come last.  Nothing is asked of valuation triangles. -/
def Ordered (t : Tri K) : Prop :=
  t.isVal = false →
    (∀ o ∈ t.odims, o ≤ t.vd) ∧ (∀ d ∈ t.ddims, 1 ≤ d) ∧ 9999 ∉ t.ddims.dropLast

/-- The labels and array of `pick`, with the valuation date left open. -/
def picked (t : Tri K) (pi pc po pd : List Nat) (v : Int) : Tri K :=
  { t with
    values := t.values.take pi pc po pd
    kdims := pi.map (t.kdims.getD · [])
    vdims := pc.map (t.vdims.getD · "")
    odims := po.map (t.odims.getD · 0)
    ddims := pd.map (t.ddims.getD · 0)
    vd := v }

theorem pick_eq (t : Tri K) (pi pc po pd : List Nat) (h : t.isVal = true ∨ pd ≠ []) :
    t.pick pi pc po pd = .ok (t.picked pi pc po pd
      (((t.picked pi pc po pd t.vd).valuations.max?).elim t.vd fun m => min m t.vd)) := by
  unfold pick
  have : (!t.isVal && pd.isEmpty) = false := by
    rcases h with h | h
    · simp [h]
    · simp [h]
  simp only [this, Bool.false_eq_true, if_false]
  show (match (t.picked pi pc po pd t.vd).valuations.max? with
    | none => _
    | some m => _) = _
  cases (t.picked pi pc po pd t.vd).valuations.max? <;> rfl

theorem map_getD_range {α : Type} (l : List α) (x : α) :
    (List.range l.length).map (l.getD · x) = l := by
  apply List.ext_getElem
  · simp
  · intro i h1 h2
    simp at h1
    simp [List.getD_eq_getElem?_getD, h1]

theorem getD_map_getD {α : Type} (p : List Nat) (l : List α) (x : α) (i : Nat)
    (hi : i < p.length) : (p.map (l.getD · x)).getD i x = l.getD (p.getD i 0) x := by
  simp [List.getD_eq_getElem?_getD, hi]

theorem getD_range_add (m a i : Nat) (hi : i < m) :
    ((List.range m).map (· + a)).getD i 0 = i + a := by
  simp [List.getD_eq_getElem?_getD, hi]

theorem getD_range (m i : Nat) (hi : i < m) : (List.range m).getD i 0 = i := by
  simp [List.getD_eq_getElem?_getD, hi]

theorem mem_valuations {t : Tri K} {v : Int} : v ∈ t.valuations ↔
    ∃ o d, o < t.odims.length ∧ d < t.ddims.length ∧ t.valuation o d = v := by
  simp only [valuations, List.mem_flatMap, List.mem_map, List.mem_range]
  constructor
  · rintro ⟨d, hd, o, ho, rfl⟩; exact ⟨o, d, ho, hd, rfl⟩
  · rintro ⟨o, d, ho, hd, rfl⟩; exact ⟨d, hd, o, ho, rfl⟩

/-- 9999 is the last label of a contiguous pick exactly if the pick reaches the end. -/
theorem last_ult_contig {dd : List Int} (h9 : (9999 : Int) ∉ dd.dropLast) {m a : Nat} (hm : 0 < m)
    (h : m + a ≤ dd.length) :
    ((((List.range m).map (· + a)).map (dd.getD · 0)).getLast? = some 9999) ↔
      (dd.getLast? = some 9999 ∧ m + a = dd.length) := by
  have e1 : (((List.range m).map (· + a)).map (dd.getD · 0)).getLast? = dd[m - 1 + a]? := by
    rw [List.getLast?_eq_getElem?]
    have : m - 1 + a < dd.length := by omega
    have hm1 : m - 1 < m := by omega
    simp only [List.length_map, List.length_range, List.getElem?_map]
    rw [List.getElem?_eq_getElem (by simpa using hm1), List.getElem?_eq_getElem this]
    simp [List.getD_eq_getElem?_getD, this]
  rw [e1, List.getLast?_eq_getElem?]
  constructor
  · intro hh
    have hlt : m - 1 + a < dd.length := by omega
    have : m - 1 + a = dd.length - 1 := by
      by_contra hne
      apply h9
      have hd : m - 1 + a < dd.dropLast.length := by rw [List.length_dropLast]; omega
      have : dd.dropLast[m - 1 + a] = 9999 := by
        rw [List.getElem_dropLast]
        rw [List.getElem?_eq_getElem hlt] at hh
        exact Option.some.inj hh
      rw [← this]; exact List.getElem_mem hd
    exact ⟨by rw [← this]; exact hh, by omega⟩
  · rintro ⟨h1, h2⟩
    have : m - 1 + a = dd.length - 1 := by omega
    rw [this]; exact h1

theorem valuation_picked_contig {t : Tri K} (ho : Ordered t) (pi pc po : List Nat) (m a : Nat)
    (v : Int) (hpo : ∀ p ∈ po, p < t.odims.length) (hm : 0 < m) (h : m + a ≤ t.ddims.length)
    (hv : t.isVal = false → ∀ p ∈ po, t.odims.getD p 0 ≤ v) {o d : Nat} (hoo : o < po.length) (hd : d < m) :
    (t.picked pi pc po ((List.range m).map (· + a)) v).valuation o d =
      t.valuation (po.getD o 0) (d + a) := by
  have hd' : d < ((List.range m).map (· + a)).length := by simpa using hd
  show valuationOf t.isVal (po.map (t.odims.getD · 0))
    (((List.range m).map (· + a)).map (t.ddims.getD · 0)) v o d =
    valuationOf t.isVal t.odims t.ddims t.vd (po.getD o 0) (d + a)
  unfold valuationOf
  rw [getD_map_getD _ _ _ _ hd', getD_map_getD _ _ _ _ hoo, getD_range_add _ _ _ hd]
  rcases Bool.eq_false_or_eq_true t.isVal with hval | hval
  · simp [hval]
  · obtain ⟨h1, h2, h3⟩ := ho hval
    simp only [hval, Bool.false_eq_true, if_false]
    have hl := last_ult_contig h3 hm h
    have hp : po.getD o 0 ∈ po := by
      rw [List.getD_eq_getElem _ _ hoo]; exact List.getElem_mem hoo
    have hmem : t.odims.getD (po.getD o 0) 0 ∈ t.odims := by
      have : po.getD o 0 < t.odims.length := hpo _ hp
      rw [List.getD_eq_getElem _ _ this]; exact List.getElem_mem this
    have e1 := h1 _ hmem
    have e2 := hv hval _ hp
    rw [min_eq_left e1, min_eq_left e2]
    have hlen : (((List.range m).map (· + a)).map (t.ddims.getD · 0)).length = m := by simp
    by_cases hc : t.ddims.getLast? = some 9999 ∧ d + a + 1 = t.ddims.length
    · rw [if_pos hc, if_pos ⟨hl.2 ⟨hc.1, by omega⟩, by omega⟩]
    · rw [if_neg hc, if_neg]
      rintro ⟨h4, h6⟩
      exact hc ⟨(hl.1 h4).1, by have := (hl.1 h4).2; omega⟩

/-- The valuation date of a contiguous pick. -/
theorem pick_contig {t : Tri K} (ho : Ordered t) (hu : t.isVal = false → t.vd ≤ ultVal)
    (pi pc po : List Nat) (m a : Nat)
    (hpo : ∀ p ∈ po, p < t.odims.length) (hm : 0 < m) (h : m + a ≤ t.ddims.length) :
    ∃ v, t.pick pi pc po ((List.range m).map (· + a)) =
        .ok (t.picked pi pc po ((List.range m).map (· + a)) v) ∧ v ≤ t.vd ∧
      (t.isVal = false → ∀ o ∈ po, t.odims.getD o 0 ≤ v) ∧
      (∀ o d, o < po.length → d < m →
        (t.valuation (po.getD o 0) (d + a) > v ↔ t.valuation (po.getD o 0) (d + a) > t.vd)) := by
  set pd := (List.range m).map (· + a) with hpd
  have hne : pd ≠ [] := by simp [hpd]; omega
  refine ⟨_, pick_eq t pi pc po pd (Or.inr hne), ?_⟩
  have hval : ∀ o d, o < po.length → d < m →
      (t.picked pi pc po pd t.vd).valuation o d = t.valuation (po.getD o 0) (d + a) :=
    fun o d h1 h2 => valuation_picked_contig ho pi pc po m a t.vd hpo hm h
      (fun hv p hp => (ho hv).1 _ (by
        rw [List.getD_eq_getElem _ _ (hpo p hp)]; exact List.getElem_mem _)) h1 h2
  have hlen1 : (t.picked pi pc po pd t.vd).odims.length = po.length := by simp [picked]
  have hlen2 : (t.picked pi pc po pd t.vd).ddims.length = m := by simp [picked, hpd]
  cases hM : (t.picked pi pc po pd t.vd).valuations.max? with
  | none =>
    have he := List.max?_eq_none_iff.1 hM
    have hpo0 : po = [] := by
      by_contra hne'
      have h0 : 0 < po.length := List.length_pos_iff.2 hne'
      have : (t.picked pi pc po pd t.vd).valuation 0 0 ∈ (t.picked pi pc po pd t.vd).valuations :=
        mem_valuations.2 ⟨0, 0, by omega, by omega, rfl⟩
      rw [he] at this; simp at this
    subst hpo0
    simp
  | some M =>
    have hmax : ∀ x ∈ (t.picked pi pc po pd t.vd).valuations, x ≤ M := by
      intro x hx
      have := List.max?_eq_some_iff.1 hM
      exact this.2 x hx
    simp only [Option.elim]
    refine ⟨min_le_right _ _, ?_, ?_⟩
    · intro hv o hmem
      obtain ⟨j, hj, rfl⟩ := List.mem_iff_getElem.1 hmem
      obtain ⟨h1, h2, h3⟩ := ho hv
      have hlt := hpo _ (List.getElem_mem hj)
      have hom : t.odims.getD po[j] 0 ∈ t.odims := by
        rw [List.getD_eq_getElem _ _ hlt]; exact List.getElem_mem hlt
      refine le_min ?_ (h1 _ hom)
      refine le_trans ?_ (hmax _ (mem_valuations.2 ⟨j, 0, by omega, by omega, rfl⟩))
      rw [hval j 0 hj hm, List.getD_eq_getElem _ _ hj]
      unfold valuation valuationOf
      simp only [hv, Bool.false_eq_true, if_false]
      split_ifs
      · exact le_trans (h1 _ hom) (hu hv)
      · rw [min_eq_left (h1 _ hom)]
        have : 0 + a < t.ddims.length := by omega
        have := h2 (t.ddims.getD (0 + a) 0) (by
          rw [List.getD_eq_getElem _ _ this]; exact List.getElem_mem this)
        omega
    · intro o d h1 h2
      have := hmax _ (mem_valuations.2 ⟨o, d, by omega, by omega, rfl⟩)
      rw [hval o d h1 h2] at this
      omega

theorem contig_slc (s : PySlice) : contigSlice (.slc s) = .ok (.slc s) := rfl

/-- `Sel n k ps`: on an axis of length `n` the index key `k` selects the positions `ps`
(through the rewriting steps of the code). -/
def Sel (n : Nat) (k : Key) (ps : List Nat) : Prop :=
  ∃ k' k'', normalizeKey n k = .ok k' ∧ contigSlice k' = .ok k'' ∧ k''.positions n = .ok ps

/-- As `Sel`, and the final key is a slice (needed on the origin and development axes). -/
def SelS (n : Nat) (k : Key) (ps : List Nat) : Prop :=
  ∃ k' s, normalizeKey n k = .ok k' ∧ contigSlice k' = .ok (.slc s) ∧
    PySlice.positions s n = .ok ps

theorem SelS.sel {n : Nat} {k : Key} {ps : List Nat} (h : SelS n k ps) : Sel n k ps := by
  obtain ⟨k', s, h1, h2, h3⟩ := h
  exact ⟨k', .slc s, h1, h2, h3⟩

theorem selS_all (n : Nat) : SelS n (.slc .all) (List.range n) := by
  obtain ⟨a, h1, h2⟩ := norm_all n
  exact ⟨_, a, h1, rfl, h2⟩

theorem iloc_of_sel {t : Tri K} {ki kc ko kd : Key} {pi pc po pd : List Nat}
    (hi : Sel t.values.d0 ki pi) (hc : Sel t.values.d1 kc pc) (ho : SelS t.values.d2 ko po)
    (hd : SelS t.values.d3 kd pd) : t.iloc ki kc ko kd = t.pick pi pc po pd := by
  obtain ⟨i1, i2, i3, i4, i5⟩ := hi
  obtain ⟨c1, c2, c3, c4, c5⟩ := hc
  obtain ⟨o1, o2, o3, o4, o5⟩ := ho
  obtain ⟨e1, e2, e3, e4, e5⟩ := hd
  have op : (Key.slc o2).positions t.values.d2 = .ok po := o5
  have ep : (Key.slc e2).positions t.values.d3 = .ok pd := e5
  have os : (Key.slc o2).isSlice = true := rfl
  have es : (Key.slc e2).isSlice = true := rfl
  simp only [iloc, i3, c3, o3, e3, bind, Except.bind, getIdx, i4, c4, o4, e4, op, ep, os, es,
    Bool.not_true, Bool.or_self, Bool.false_eq_true, if_false, i5, c5]

theorem ilocD_of_positions {t : Tri K} {k : Key} {pd : List Nat} (h : SelS t.values.d3 k pd) :
    t.ilocD k = t.pick (List.range t.values.d0) (List.range t.values.d1)
      (List.range t.values.d2) pd :=
  iloc_of_sel (selS_all _).sel (selS_all _).sel (selS_all _) h

theorem ilocO_of_positions {t : Tri K} {k : Key} {po : List Nat} (h : SelS t.values.d2 k po) :
    t.ilocO k = t.pick (List.range t.values.d0) (List.range t.values.d1) po
      (List.range t.values.d3) :=
  iloc_of_sel (selS_all _).sel (selS_all _).sel h (selS_all _)

theorem selS_from (n a : Nat) : SelS n (.from (a : Int)) ((List.range (n - a)).map (· + a)) := by
  obtain ⟨k, h1, h2⟩ := norm_from n a
  exact ⟨_, k, h1, rfl, h2⟩

theorem selS_upto_neg (n b : Nat) (hb : b ≤ n) (h0 : b ≠ 0) :
    SelS n (.upto (-(b : Int))) (List.range (n - b)) := by
  obtain ⟨k, h1, h2⟩ := norm_upto_neg n b hb
  rw [if_neg h0] at h2
  exact ⟨_, k, h1, rfl, h2⟩

theorem selS_nat (n i : Nat) (hi : i < n) : SelS n (.int (i : Int)) [i] := by
  obtain ⟨k, h1, h2⟩ := contig_int_positions n i hi
  have h := norm_int n (i : Int) (by omega)
  have : ¬ ((i : Int) < 0) := by omega
  rw [if_neg this] at h
  exact ⟨_, k, h, h1, h2⟩

theorem selS_last (n : Nat) (h : 0 < n) : SelS n (.int (-1)) [n - 1] := by
  obtain ⟨k, k', h1, h2, h3⟩ := norm_contig_last n h
  exact ⟨_, k', h1, h2, h3⟩

theorem ilocD_from (t : Tri K) (a : Nat) : t.ilocD (.from (a : Int)) =
    t.pick (List.range t.values.d0) (List.range t.values.d1) (List.range t.values.d2)
      ((List.range (t.values.d3 - a)).map (· + a)) := ilocD_of_positions (selS_from _ _)

theorem ilocD_upto_neg (t : Tri K) (b : Nat) (hb : b ≤ t.values.d3) (h0 : b ≠ 0) :
    t.ilocD (.upto (-(b : Int))) =
    t.pick (List.range t.values.d0) (List.range t.values.d1) (List.range t.values.d2)
      (List.range (t.values.d3 - b)) := ilocD_of_positions (selS_upto_neg _ _ hb h0)

theorem ilocD_nat (t : Tri K) (i : Nat) (hi : i < t.values.d3) : t.ilocD (.int (i : Int)) =
    t.pick (List.range t.values.d0) (List.range t.values.d1) (List.range t.values.d2) [i] :=
  ilocD_of_positions (selS_nat _ _ hi)

theorem ilocD_last (t : Tri K) (h : 0 < t.values.d3) : t.ilocD (.int (-1)) =
    t.pick (List.range t.values.d0) (List.range t.values.d1) (List.range t.values.d2)
      [t.values.d3 - 1] := ilocD_of_positions (selS_last _ h)

end Tri
end CL
