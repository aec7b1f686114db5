import Verif.Lemmas.Tri
import Verif.Spec.Examples

set_option linter.unusedSectionVars false

/-! # C13: positional slicing -/

namespace CL
namespace Tri
variable {K : Type} [Field K] [LinearOrder K] [IsStrictOrderedRing K]

/-- What Python selects on a list of length `n` for an integer or a slice. -/
def PySelects (n : Nat) (k : Key) (ps : List Nat) : Prop :=
  match k with
  | .int i => -(n : Int) ≤ i ∧ i < n ∧ ps = [(if i < 0 then i + (n : Int) else i).toNat]
  | .slc s => s.positions n = .ok ps
  | .lst _ => False

/-- Integers and slices on which the index rewriting of the library is harmless. -/
def SafeKey (n : Nat) (k : Key) : Prop :=
  match k with
  | .int _ => True
  | .slc s => SafePos n s ∨ SafeNeg n s
  | .lst _ => False

theorem selS_of_safe {n : Nat} {k : Key} {ps : List Nat} (hs : SafeKey n k)
    (hp : PySelects n k ps) : SelS n k ps := by
  match k, hs, hp with
  | .int i, _, ⟨h1, h2, h3⟩ =>
    subst h3
    have e := norm_int n i ⟨h1, h2⟩
    set j := if i < 0 then i + (n : Int) else i with hj
    have hj0 : 0 ≤ j := by rw [hj]; split_ifs <;> omega
    have hjn : j < n := by rw [hj]; split_ifs <;> omega
    obtain ⟨s, h4, h5⟩ := contig_int_positions n j.toNat (by omega)
    rw [Int.toNat_of_nonneg hj0] at h4
    exact ⟨_, s, e, h4, h5⟩
  | .slc s, hs, hp =>
    obtain ⟨s', h1, h2⟩ := hs.elim normalize_pos normalize_neg
    exact ⟨_, s', h1, rfl, h2.trans hp⟩

/-- Labels at positions `ps` of an axis. -/
def At {α : Type} (labels out : List α) (ps : List Nat) : Prop :=
  out.length = ps.length ∧ ∀ j (h : j < ps.length), out[j]? = labels[ps[j]]?

private theorem at_map {α : Type} (l : List α) (x : α) (ps : List Nat)
    (h : ∀ p ∈ ps, p < l.length) : At l (ps.map (l.getD · x)) ps := by
  refine ⟨by simp, ?_⟩
  intro j hj
  have := h _ (List.getElem_mem hj)
  simp [hj, List.getD_eq_getElem?_getD, this]

private theorem pyRange_mem {a b c x : Int} (hc : 0 < c) (hx : x ∈ pyRange a b c) : a ≤ x ∧ x < b := by
  unfold pyRange at hx
  simp only [gt_iff_lt, hc, if_true, List.mem_map, List.mem_range] at hx
  obtain ⟨i, hi, rfl⟩ := hx
  have h1 : (i : Int) < (b - a + c - 1) / c := by omega
  have h2 : ((i : Int) + 1) * c ≤ b - a + c - 1 := by
    have := Int.mul_le_of_le_ediv hc (show (i : Int) + 1 ≤ (b - a + c - 1) / c by omega)
    exact this
  have h3 : 0 ≤ (i : Int) * c := by positivity
  have h4 : ((i : Int) + 1) * c = (i : Int) * c + c := by ring
  constructor <;> linarith [h4 ▸ h2]

private theorem pyRange_mem_neg {a b c x : Int} (hc : c < 0) (hx : x ∈ pyRange a b c) :
    b < x ∧ x ≤ a := by
  unfold pyRange at hx
  have hc' : ¬ c > 0 := by omega
  simp only [hc', if_false, List.mem_map, List.mem_range] at hx
  obtain ⟨i, hi, rfl⟩ := hx
  have hc2 : 0 < -c := by omega
  have h2 : ((i : Int) + 1) * (-c) ≤ a - b + (-c) - 1 :=
    Int.mul_le_of_le_ediv hc2 (show (i : Int) + 1 ≤ (a - b + (-c) - 1) / (-c) by omega)
  have h3 : 0 ≤ (i : Int) * (-c) := by positivity
  have h4 : ((i : Int) + 1) * (-c) = (i : Int) * (-c) + (-c) := by ring
  constructor <;> nlinarith [h4 ▸ h2]

/-- Python only selects positions of the list. -/
theorem positions_lt {s : PySlice} {n : Nat} {ps : List Nat} (h : s.positions n = .ok ps) :
    ∀ p ∈ ps, p < n := by
  unfold PySlice.positions PySlice.indices at h
  by_cases hc0 : s.step.getD 1 = 0
  · simp [hc0] at h
  · simp only [hc0, if_false] at h
    injection h with h
    subst h
    intro p hp
    obtain ⟨x, hx, rfl⟩ := List.mem_map.1 hp
    rcases lt_trichotomy (s.step.getD 1) 0 with hc | hc | hc
    · have h1 := pyRange_mem_neg hc hx
      simp only [hc, if_true] at h1
      have ha : x ≤ (n : Int) - 1 := by
        refine le_trans h1.2 ?_
        cases s.start with
        | none => simp
        | some v => simp only; split_ifs <;> omega
      have hb : -1 < x := by
        refine lt_of_le_of_lt ?_ h1.1
        cases s.stop with
        | none => simp
        | some v => simp only; split_ifs <;> omega
      omega
    · exact absurd hc hc0
    · have h1 := pyRange_mem hc hx
      have hc' : ¬ s.step.getD 1 < 0 := by omega
      simp only [hc', if_false] at h1
      have ha : x < n := by
        refine lt_of_lt_of_le h1.2 ?_
        cases s.stop with
        | none => simp
        | some v => simp only; split_ifs <;> omega
      have hb : 0 ≤ x := by
        refine le_trans ?_ h1.1
        cases s.start with
        | none => simp
        | some v => simp only; split_ifs <;> omega
      omega

theorem pySelects_lt {n : Nat} {k : Key} {ps : List Nat} (h : PySelects n k ps) :
    ∀ p ∈ ps, p < n := by
  match k, h with
  | .int i, ⟨h1, h2, h3⟩ =>
    subst h3; intro p hp; simp at hp; subst hp; split_ifs <;> omega
  | .slc s, h => exact positions_lt h

/-- **C13** (partial: keys satisfying `SafeKey`; the theorems below show that the excluded slices
really go wrong).  `iloc` with an integer or slice on each axis returns the labels and cells at
exactly the positions Python selects on a list of that length, in that order. -/
theorem C13_iloc_partial {t : Tri K} (wf : WF t) {ki kc ko kd : Key} {pi pc po pd : List Nat}
    (si : SafeKey t.values.d0 ki) (sc : SafeKey t.values.d1 kc) (so : SafeKey t.values.d2 ko)
    (sd : SafeKey t.values.d3 kd)
    (hi : PySelects t.values.d0 ki pi) (hc : PySelects t.values.d1 kc pc)
    (ho : PySelects t.values.d2 ko po) (hd : PySelects t.values.d3 kd pd)
    (hne : t.isVal = true ∨ pd ≠ []) :
    ∃ u, t.iloc ki kc ko kd = .ok u ∧ WF u ∧
      At t.kdims u.kdims pi ∧ At t.vdims u.vdims pc ∧ At t.odims u.odims po ∧
      At t.ddims u.ddims pd ∧ u.vd ≤ t.vd ∧
      ∀ i c o d (h0 : i < pi.length) (h1 : c < pc.length) (h2 : o < po.length)
        (h3 : d < pd.length),
        u.values.get i c o d = t.values.get pi[i] pc[c] po[o] pd[d] := by
  obtain ⟨w0, w1, w2, w3⟩ := wf
  have e := iloc_of_sel (selS_of_safe si hi).sel (selS_of_safe sc hc).sel (selS_of_safe so ho)
    (selS_of_safe sd hd)
  rw [pick_eq _ _ _ _ _ hne] at e
  refine ⟨_, e, ?_, ?_, ?_, ?_, ?_, ?_, ?_⟩
  · refine ⟨?_, ?_, ?_, ?_⟩ <;> simp [picked, Arr.take]
  · exact at_map _ _ _ (by rw [← w0]; exact pySelects_lt hi)
  · exact at_map _ _ _ (by rw [← w1]; exact pySelects_lt hc)
  · exact at_map _ _ _ (by rw [← w2]; exact pySelects_lt ho)
  · exact at_map _ _ _ (by rw [← w3]; exact pySelects_lt hd)
  · show Option.elim _ _ _ ≤ t.vd
    cases (t.picked pi pc po pd t.vd).valuations.max? with
    | none => exact le_rfl
    | some m => exact min_le_right _ _
  · intro i c o d h0 h1 h2 h3
    show t.values.get (pi.getD i 0) (pc.getD c 0) (po.getD o 0) (pd.getD d 0) = _
    rw [List.getD_eq_getElem _ _ h0, List.getD_eq_getElem _ _ h1, List.getD_eq_getElem _ _ h2,
      List.getD_eq_getElem _ _ h3]

/-- An integer out of range is rejected on every axis (here: origin). -/
theorem C13_out_of_range (t : Tri K) (i : Int) (h : i ≥ t.values.d2 ∨ i < -(t.values.d2 : Int)) :
    t.ilocO (.int i) = .error .indexError := by
  obtain ⟨k0, _, h0⟩ := selS_all t.values.d0
  obtain ⟨k1, _, h1⟩ := selS_all t.values.d1
  have : normalizeKey t.values.d2 (.int i) = .error .indexError := by
    simp [normalizeKey, sparseNormalize, h]
  simp only [ilocO, iloc, h0, h1, this, bind, Except.bind]

/-- `tri3.iloc[..., 1:, ::-1]`: origins 2021, 2022, ages 36, 24, 12. -/
example : ∃ u, (Ex.tri3 (some true) Ex.cum3).iloc (.slc .all) (.slc .all)
    (.slc ⟨some 1, none, none⟩) (.slc ⟨none, none, some (-1)⟩) = .ok u ∧
    u.values.get 0 0 0 1 = .fin 168 := by
  obtain ⟨u, e, -, -, -, -, -, -, h⟩ := C13_iloc_partial (t := Ex.tri3 (some true) Ex.cum3)
    (by decide) (pi := [0]) (pc := [0]) (po := [1, 2]) (pd := [2, 1, 0])
    (ki := .slc .all) (kc := .slc .all) (ko := .slc ⟨some 1, none, none⟩)
    (kd := .slc ⟨none, none, some (-1)⟩)
    (Or.inl ⟨by decide, by simp [PySlice.all], Or.inl rfl⟩)
    (Or.inl ⟨by decide, by simp [PySlice.all], Or.inl rfl⟩)
    (Or.inl ⟨by decide, by simp, Or.inl rfl⟩)
    (Or.inr ⟨by decide, by simp, by decide, by simp⟩)
    (by rfl) (by rfl) (by rfl) (by rfl) (Or.inr (by decide))
  exact ⟨u, e, (h 0 0 0 1 (by decide) (by decide) (by decide) (by decide)).trans rfl⟩

/-- **C13 is false for `[::c]`, c >= 2**: on every axis longer than one the step is dropped and
everything is selected, while Python selects position 0 and not position 1. -/
theorem C13_step_dropped_false (n : Nat) (hn : 2 ≤ n) (c : Int) (hc : 2 ≤ c) :
    SelS n (.slc ⟨none, none, some c⟩) (List.range n) ∧
    ∃ ps, (PySlice.mk none none (some c)).positions n = .ok ps ∧ 1 ∉ ps := by
  constructor
  · have h1 : ¬ ((0 : Int) > (n : Int)) := by omega
    refine ⟨.slc .all, .all, ?_, rfl, positions_all n⟩
    have hc' : c > 0 := by omega
    have e1 : posifySlice n (replaceNone ⟨none, none, some c⟩ n) = (0, (n : Int), c) := by
      have h2 : ¬ ((n : Int) < 0) := by omega
      simp [posifySlice, replaceNone, hc']
    have e2 : clipSlice n (0, (n : Int), c) = (0, (n : Int), c) := by
      simp [clipSlice, hc']
    simp only [normalizeKey, sparseNormalize, e1, e2]
    simp [PySlice.all]
  · have hc0 : ¬ (c = 0) := by omega
    have hc1 : ¬ (c < 0) := by omega
    refine ⟨(pyRange 0 n c).map Int.toNat, by simp [PySlice.positions, PySlice.indices, hc0, hc1], ?_⟩
    intro h
    obtain ⟨x, hx, e⟩ := List.mem_map.1 h
    have hx1 : x = 1 := by omega
    subst hx1
    unfold pyRange at hx
    obtain ⟨i, -, hi⟩ := List.mem_map.1 hx
    rcases Nat.eq_zero_or_pos i with rfl | hpos
    · simp at hi
    · have : (1 : Int) * c ≤ (i : Int) * c := by
        apply Int.mul_le_mul_of_nonneg_right <;> omega
      omega

/-- **C13 is false for `[:-k]` with k beyond the axis**: everything is selected, Python selects
nothing. -/
theorem C13_far_negative_stop_false (n k : Nat) (hk : n < k) :
    SelS n (.slc ⟨none, some (-(k : Int)), none⟩) (List.range n) ∧
    (PySlice.mk none (some (-(k : Int))) none).positions n = .ok [] := by
  constructor
  · refine ⟨.slc .all, .all, ?_, rfl, positions_all n⟩
    have e1 : posifySlice n (replaceNone ⟨none, some (-(k : Int)), none⟩ n) =
        (0, -(k : Int) + n, 1) := by
      have h2 : ¬ ((0 : Int) > -(k : Int) ∧ -(k : Int) ≥ 1) := by omega
      have h3 : -(k : Int) < 0 := by omega
      simp [posifySlice, replaceNone]
      omega
    have e2 : clipSlice n (0, -(k : Int) + n, 1) = (-(k : Int) + n, -(k : Int) + n, 1) := by
      have : min (-(k : Int) + n) n = -(k : Int) + n := by omega
      have h0 : max (0 : Int) 0 = 0 := by omega
      have h4 : (0 : Int) > -(k : Int) + n := by omega
      simp only [clipSlice, gt_iff_lt, zero_lt_one, if_true, this, h0]
      rw [if_pos (by omega)]
    simp only [normalizeKey, sparseNormalize, e1, e2]
    have h5 : ¬ (-(k : Int) + n > 0) := by omega
    have h6 : ¬ (-(k : Int) + n > -1) := by omega
    simp [PySlice.all, h5, h6]
  · rw [positions_upto_neg]
    have : (if k = 0 then 0 else n - k) = 0 := by split_ifs <;> omega
    rw [this]; rfl

/-- **C13 is false for `[0::-1]`**: everything is selected in order (axis length at least 2),
Python selects the first position only.  Witness for length 3. -/
theorem C13_reverse_from_zero_false :
    SelS 3 (.slc ⟨some 0, none, some (-1)⟩) [0, 1, 2] ∧
    (PySlice.mk (some 0) none (some (-1))).positions 3 = .ok [0] :=
  ⟨⟨_, _, rfl, rfl, rfl⟩, rfl⟩

/-- The witness `tri.iloc[..., ::2, :]` on a 3 x 3 triangle keeps all three origins. -/
theorem C13_tri_false :
    ∃ (t : Tri ℚ) (u : Tri ℚ), Proper t ∧ t.ilocO (.slc ⟨none, none, some 2⟩) = .ok u ∧
      (PySlice.mk none none (some 2)).positions t.values.d2 = .ok [0, 2] ∧ u.odims = t.odims := by
  have hs := (C13_step_dropped_false 3 (by omega) 2 (by omega)).1
  have h := ilocO_of_positions (t := Ex.tri3 (some true) Ex.cum3) hs
  rw [pick_eq _ _ _ _ _ (Or.inr (by decide))] at h
  exact ⟨_, _, Ex.proper_tri3 (some true), h, rfl, rfl⟩

end Tri
end CL
