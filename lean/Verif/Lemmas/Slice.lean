import Verif.Model.Slice

namespace CL

theorem pyRange_pos_empty {a b c : Int} (hc : 0 < c) (h : b ≤ a) : pyRange a b c = [] := by
  unfold pyRange
  have : (b - a + c - 1) / c ≤ 0 := by
    have : (b - a + c - 1) / c < 1 := by
      apply Int.ediv_lt_of_lt_mul hc; omega
    omega
  simp only [hc, if_true]
  rw [Int.toNat_eq_zero.2 this]; rfl

theorem pyRange_neg_empty {a b c : Int} (hc : c < 0) (h : a ≤ b) : pyRange a b c = [] := by
  unfold pyRange
  have h1 : ¬ c > 0 := by omega
  have : (a - b + (-c) - 1) / (-c) ≤ 0 := by
    have : (a - b + (-c) - 1) / (-c) < 1 := by
      apply Int.ediv_lt_of_lt_mul (by omega); omega
    omega
  simp only [h1, if_false]
  rw [Int.toNat_eq_zero.2 this]; rfl

theorem pyRange_one (a b : Int) :
    pyRange a b 1 = (List.range (b - a).toNat).map fun i : Nat => a + (i : Int) := by
  unfold pyRange
  simp

/-- The positions of `slice(None)` are all positions. -/
theorem positions_all (n : Nat) : PySlice.all.positions n = .ok (List.range n) := by
  simp only [PySlice.positions, PySlice.indices, PySlice.all]
  simp only [Option.getD_none, one_ne_zero, if_false]
  have h : ¬ ((1 : Int) < 0) := by omega
  simp only [h, if_false, pyRange_one]
  simp [List.map_map, Function.comp_def]

/-- Positive step slices on which the index rewriting is harmless. -/
def SafePos (n : Nat) (s : PySlice) : Prop :=
  0 < s.step.getD 1 ∧
  (∀ b, s.stop = some b → -(n : Int) ≤ b) ∧
  (s.step.getD 1 = 1 ∨ n ≤ 1 ∨ ∀ a b, s.indices n ≠ .ok (a, b, s.step.getD 1) ∨ 0 < a ∨ b < n)

/-- Negative step slices on which the index rewriting is harmless: the first selected position
is not 0, an explicit stop is within the axis and not in the sentinel window `[step, -1]`. -/
def SafeNeg (n : Nat) (s : PySlice) : Prop :=
  s.step.getD 1 < 0 ∧
  (∀ a, s.start = some a → 0 < a ∨ (a < 0 ∧ 0 < a + n)) ∧ 2 ≤ n ∧
  (∀ b, s.stop = some b → (0 ≤ b ∧ b < n) ∨ (b < s.step.getD 1))

theorem normalize_pos {n : Nat} {s : PySlice} (h : SafePos n s) :
    ∃ k, normalizeKey n (.slc s) = .ok (.slc k) ∧ k.positions n = s.positions n := by
  obtain ⟨hc, hstop, hfull⟩ := h
  rcases s with ⟨start, stop, step⟩
  simp only at hc hstop hfull
  set c := step.getD 1 with hcdef
  have hc0 : c ≠ 0 := by omega
  have hcn : ¬ c < 0 := by omega
  -- python indices
  set a' : Int := match start with
    | none => 0
    | some v => if v < 0 then max (v + n) 0 else min v n with ha'
  set b' : Int := match stop with
    | none => (n : Int)
    | some v => if v < 0 then max (v + n) 0 else min v n with hb'
  have hind : (PySlice.mk start stop step).indices n = .ok (a', b', c) := by
    simp only [PySlice.indices, ← hcdef, hc0, hcn, if_false]
    cases start <;> cases stop <;> rfl
  -- sparse indices
  set a : Int := start.getD 0 with ha
  set b : Int := stop.getD n with hb
  set a1 : Int := if a < 0 then a + n else a with ha1
  set b1 : Int := if b < 0 then b + n else b with hb1
  set b2 : Int := min b1 n with hb2
  set a2 : Int := if max a1 0 > b2 then b2 else max a1 0 with ha2
  have hsp : clipSlice n (posifySlice n (replaceNone ⟨start, stop, step⟩ n)) = (a2, b2, c) := by
    have : ¬ (0 > b ∧ b ≥ c) := by omega
    simp only [replaceNone, posifySlice, clipSlice, ← hcdef, ← ha, ← hb, gt_iff_lt, hc, if_true]
    simp only [gt_iff_lt] at this
    simp [this, ha2, hb2, ha1, hb1]
  have hb0 : 0 ≤ b2 := by
    have : -(n : Int) ≤ b := by
      cases stop with
      | none => simp [hb]
      | some v => exact hstop v rfl
    rw [hb2, hb1]; split_ifs <;> omega
  have hbb : b2 = b' := by
    cases stop with
    | none => simp only [hb2, hb1, hb, hb', Option.getD_none]; split_ifs <;> omega
    | some v =>
      have := hstop v rfl
      simp only [hb2, hb1, hb, hb', Option.getD_some]
      split_ifs <;> omega
  have haa : a2 = a' ∨ (b2 ≤ a2 ∧ b' ≤ a') := by
    have h1 : max a1 0 = a' ∨ (n < max a1 0 ∧ a' = n) := by
      cases start with
      | none => left; simp [ha1, ha, ha']
      | some v =>
        simp only [ha1, ha, ha', Option.getD_some]
        split_ifs <;> omega
    have h2 : b2 ≤ n := by omega
    rw [ha2]; split_ifs <;> omega
  have ha20 : 0 ≤ a2 := by rw [ha2]; split_ifs <;> omega
  have hb2n : b2 ≤ n := by omega
  refine ⟨⟨if a2 > 0 then some a2 else none,
    if (if b2 > -1 then some b2 else none) = some (n : Int) then none
      else if b2 > -1 then some b2 else none,
    if (if a2 > 0 then some a2 else none) = none ∧
       (if (if b2 > -1 then some b2 else none) = some (n : Int) then none
      else if b2 > -1 then some b2 else none) = none then none else some c⟩, ?_, ?_⟩
  · simp only [normalizeKey, sparseNormalize, hsp]
  · have hb1' : b2 > -1 := by omega
    simp only [PySlice.positions, hind, hb1', if_true]
    -- rewritten indices
    by_cases hz : a2 = 0
    · by_cases hn : b2 = n
      · have e1 : ¬ a2 > 0 := by omega
        simp only [e1, hn, if_false, if_true, and_self]
        have hfin : pyRange 0 n 1 = pyRange a' b' c := by
          rw [← hbb, hn]
          have ea : a' = 0 ∨ (n : Int) = 0 := by omega
          rcases ea with ea | ea
          · rw [ea]
            rcases hfull with h | h | h
            · rw [h]
            · have : n = 0 ∨ n = 1 := by omega
              rcases this with h | h
              · rw [h, pyRange_pos_empty hc (by simp), pyRange_pos_empty (by omega) (by simp)]
              · rw [h]
                have : ((1 : Nat) : Int) - 0 + c - 1 = c := by simp
                simp [pyRange, hc, Int.ediv_self hc0]
            · have := h a' b'
              rcases this with h | h | h
              · exact absurd hind h
              · omega
              · omega
          · rw [ea, pyRange_pos_empty (by omega) (by omega)]
            rw [pyRange_pos_empty hc (by omega)]
        have : PySlice.indices ⟨none, none, none⟩ n = .ok (0, (n : Int), 1) := by
          simp [PySlice.indices]
        rw [this]; simp only [hfin]
      · have e1 : ¬ a2 > 0 := by omega
        have e2 : ¬ ((some b2 : Option Int) = some (n : Int)) := by simpa using hn
        simp only [e1, e2, if_false, and_false, reduceCtorEq]
        have : PySlice.indices ⟨none, some b2, some c⟩ n = .ok (0, b2, c) := by
          have h1 : ¬ b2 < 0 := by omega
          simp [PySlice.indices, hc0, hcn, h1, hb2n]
        rw [this]
        have : pyRange 0 b2 c = pyRange a' b' c := by
          rcases haa with h | h
          · rw [← h, hz, hbb]
          · rw [pyRange_pos_empty hc (by omega), pyRange_pos_empty hc (by omega)]
        simp only [this]
    · have e1 : a2 > 0 := by omega
      simp only [e1, if_true, reduceCtorEq, false_and, if_false]
      have : ∀ st : Option Int, (st = some b2 ∨ (st = none ∧ b2 = n)) →
          PySlice.indices ⟨some a2, st, some c⟩ n = .ok (a2, b2, c) := by
        intro st hst
        have h1 : ¬ b2 < 0 := by omega
        have h2 : ¬ a2 < 0 := by omega
        have h3 : a2 ≤ n := by rw [ha2] at *; split_ifs at * <;> omega
        rcases hst with rfl | ⟨rfl, hn⟩
        · simp [PySlice.indices, hc0, hcn, h1, hb2n, h2, h3]
        · simp [PySlice.indices, hc0, hcn, h2, h3, hn]
      have hst := this (if (some b2 : Option Int) = some (n : Int) then none else some b2) (by
        by_cases h : b2 = n
        · right; simp [h]
        · left; simp [h])
      rw [hst]
      have : pyRange a2 b2 c = pyRange a' b' c := by
        rcases haa with h | h
        · rw [← h, hbb]
        · rw [pyRange_pos_empty hc h.1, pyRange_pos_empty hc h.2]
      simp only [this]

theorem normalize_neg {n : Nat} {s : PySlice} (h : SafeNeg n s) :
    ∃ k, normalizeKey n (.slc s) = .ok (.slc k) ∧ k.positions n = s.positions n := by
  obtain ⟨hc, hstart, hn, hstop⟩ := h
  rcases s with ⟨start, stop, step⟩
  simp only at hc hstop hstart
  set c := step.getD 1 with hcdef
  have hc0 : c ≠ 0 := by omega
  have hcn : ¬ c > 0 := by omega
  -- the start the code uses
  obtain ⟨a2, hsa, hpa, ha2⟩ : ∃ a2 : Int,
      min (if start.getD ((n : Int) - 1) < 0 then start.getD ((n : Int) - 1) + n
        else start.getD ((n : Int) - 1)) ((n : Int) - 1) = a2 ∧
      (match start with
        | none => (n : Int) - 1
        | some v => if v < 0 then max (v + n) (-1) else min v ((n : Int) - 1)) = a2 ∧
      0 < a2 ∧ a2 ≤ n - 1 := by
    refine ⟨_, rfl, ?_, ?_, ?_⟩
    · cases start with
      | none => simp only [Option.getD_none]; split_ifs <;> omega
      | some v =>
        have := hstart v rfl
        simp only [Option.getD_some]; split_ifs <;> omega
    · cases start with
      | none => simp only [Option.getD_none]; split_ifs <;> omega
      | some v =>
        have := hstart v rfl
        simp only [Option.getD_some]; split_ifs <;> omega
    · omega
  obtain ⟨b2, hsb, hpb, hb2, hbn⟩ : ∃ b2 : Int,
      max (if ¬ (0 > stop.getD (-1) ∧ stop.getD (-1) ≥ c) ∧ stop.getD (-1) < 0
        then stop.getD (-1) + n else stop.getD (-1)) (-1) = b2 ∧
      (match stop with
        | none => (-1 : Int)
        | some v => if v < 0 then max (v + n) (-1) else min v ((n : Int) - 1)) = b2 ∧
      -1 ≤ b2 ∧ b2 < n := by
    refine ⟨_, rfl, ?_, ?_, ?_⟩
    · cases stop with
      | none => simp only [Option.getD_none]; split_ifs <;> omega
      | some v =>
        have := hstop v rfl
        simp only [Option.getD_some]; split_ifs <;> omega
    · omega
    · cases stop with
      | none => simp only [Option.getD_none]; split_ifs <;> omega
      | some v =>
        have := hstop v rfl
        simp only [Option.getD_some]; split_ifs <;> omega
  have hcl : c < 0 := hc
  have hind : (PySlice.mk start stop step).indices n = .ok (a2, b2, c) := by
    simp only [PySlice.indices, ← hcdef, hc0, if_false, hcl, if_true]
    cases start <;> cases stop <;> simp_all
  set a3 : Int := if a2 < b2 then b2 else a2 with ha3
  have hsp : clipSlice n (posifySlice n (replaceNone ⟨start, stop, step⟩ n)) = (a3, b2, c) := by
    simp only [replaceNone, posifySlice, clipSlice, ← hcdef, hcn, if_false]
    rw [hsa, hsb]
  have ha30 : 0 < a3 := by rw [ha3]; split_ifs <;> omega
  refine ⟨⟨some a3, if b2 > -1 then some b2 else none, some c⟩, ?_, ?_⟩
  · simp only [normalizeKey, sparseNormalize, hsp]
    have h2 : ¬ ((if b2 > -1 then some b2 else none) = some (n : Int)) := by
      split_ifs <;> simp; omega
    simp [ha30, h2]
  · simp only [PySlice.positions, hind]
    have h3 : PySlice.indices ⟨some a3, if b2 > -1 then some b2 else none, some c⟩ n =
        .ok (a3, b2, c) := by
      have h4 : ¬ a3 < 0 := by omega
      have h5 : a3 ≤ n - 1 := by rw [ha3]; split_ifs <;> omega
      by_cases h : b2 > -1
      · have h6 : ¬ b2 < 0 := by omega
        have h7 : b2 ≤ n - 1 := by omega
        simp [PySlice.indices, hc0, hcl, h4, h5, h, h6, h7]
      · have : b2 = -1 := by omega
        simp [PySlice.indices, hc0, hcl, h4, h5, this]
    rw [h3]
    have : pyRange a3 b2 c = pyRange a2 b2 c := by
      rw [ha3]; split_ifs with h
      · rw [pyRange_neg_empty hc le_rfl, pyRange_neg_empty hc h.le]
      · rfl
    simp only [this]

/-! ### The keys used inside the library -/

theorem norm_all (n : Nat) : ∃ k, normalizeKey n (.slc .all) = .ok (.slc k) ∧
    k.positions n = .ok (List.range n) := by
  have h : SafePos n .all := by
    refine ⟨by simp [PySlice.all], by simp [PySlice.all], by simp [PySlice.all]⟩
  obtain ⟨k, h1, h2⟩ := normalize_pos h
  exact ⟨k, h1, by rw [h2, positions_all]⟩

theorem positions_from (n a : Nat) : (PySlice.mk (some (a : Int)) none none).positions n =
    .ok ((List.range (n - a)).map (· + a)) := by
  have h : ¬ ((1 : Int) < 0) := by omega
  have h' : ¬ ((a : Int) < 0) := by omega
  simp only [PySlice.positions, PySlice.indices, Option.getD_none, one_ne_zero, if_false, h, h']
  simp only [pyRange_one, List.map_map]
  congr 1
  have : ((n : Int) - min (a : Int) n).toNat = n - a := by omega
  rw [this]
  apply List.map_congr_left
  intro i hi
  simp at hi ⊢
  omega

theorem norm_from (n a : Nat) : ∃ k,
    normalizeKey n (.slc ⟨some (a : Int), none, none⟩) = .ok (.slc k) ∧
    k.positions n = .ok ((List.range (n - a)).map (· + a)) := by
  have h : SafePos n ⟨some (a : Int), none, none⟩ := by
    refine ⟨by simp, by simp, by simp⟩
  obtain ⟨k, h1, h2⟩ := normalize_pos h
  exact ⟨k, h1, by rw [h2, positions_from]⟩

theorem positions_upto_neg (n b : Nat) :
    (PySlice.mk none (some (-(b : Int))) none).positions n =
      .ok (List.range (if b = 0 then 0 else n - b)) := by
  have h : ¬ ((1 : Int) < 0) := by omega
  simp only [PySlice.positions, PySlice.indices, Option.getD_none, one_ne_zero, if_false, h]
  simp only [pyRange_one, List.map_map]
  congr 1
  have : ((if -(b : Int) < 0 then max (-(b : Int) + n) 0 else min (-(b : Int)) n) - 0).toNat =
      if b = 0 then 0 else n - b := by split_ifs <;> omega
  rw [this]
  simp [Function.comp_def]

theorem norm_upto_neg (n b : Nat) (hb : b ≤ n) : ∃ k,
    normalizeKey n (.slc ⟨none, some (-(b : Int)), none⟩) = .ok (.slc k) ∧
    k.positions n = .ok (List.range (if b = 0 then 0 else n - b)) := by
  have h : SafePos n ⟨none, some (-(b : Int)), none⟩ := by
    refine ⟨by simp, by simp; omega, by simp⟩
  obtain ⟨k, h1, h2⟩ := normalize_pos h
  exact ⟨k, h1, by rw [h2, positions_upto_neg]⟩

theorem norm_int (n : Nat) (i : Int) (h : -(n : Int) ≤ i ∧ i < n) :
    normalizeKey n (.int i) = .ok (.int (if i < 0 then i + n else i)) := by
  have : ¬ (i ≥ n ∨ i < -(n : Int)) := by omega
  simp [normalizeKey, sparseNormalize, this]

theorem contig_int_positions (n : Nat) (i : Nat) (h : i < n) :
    ∃ k, contigSlice (.int (i : Int)) = .ok (.slc k) ∧ k.positions n = .ok [i] := by
  refine ⟨_, rfl, ?_⟩
  have h0 : ¬ ((1 : Int) < 0) := by omega
  have h1 : ¬ ((i : Int) < 0) := by omega
  have h2 : ¬ ((i : Int) + 1 < 0) := by omega
  simp only [PySlice.positions, PySlice.indices, Option.getD_none, one_ne_zero, if_false, h0, h1,
    h2, pyRange_one]
  have : (min ((i : Int) + 1) n - min (i : Int) n).toNat = 1 := by omega
  rw [this]
  simp
  omega

theorem norm_contig_last (n : Nat) (h : 0 < n) : ∃ k k', normalizeKey n (.int (-1)) = .ok k ∧
    contigSlice k = .ok (.slc k') ∧ k'.positions n = .ok [n - 1] := by
  obtain ⟨k, h1, h2⟩ := contig_int_positions n (n - 1) (by omega)
  refine ⟨_, k, norm_int n (-1) (by omega), ?_, h2⟩
  rw [← h1]; congr 2
  simp; omega

end CL
