import Verif.Lemmas.Convert

set_option linter.unusedSectionVars false

namespace CL
namespace Tri
variable {K : Type} [Field K] [LinearOrder K] [IsStrictOrderedRing K]

/-- A factor as the pattern code reads it: missing and zero become one. -/
def factor (x : Num K) : Num K := x.nanToNum.numToValue 1

theorem factor_eq {x : Num K} (h : x.NoInf) :
    factor x = .fin (if x.amt = 0 then 1 else x.amt) := by
  rcases Num.noInf_cases h with rfl | ⟨a, rfl⟩
  · simp [factor, Num.numToValue, Num.one_def]
  · by_cases ha : a = 0 <;> simp [factor, Num.numToValue, ha, Num.one_def]

/-- Cell-wise description of `incr_to_cum` for multiplicative patterns. -/
theorem incrToCum_pattern {t : Tri K} (hf : Finite t) (hc : t.isCum ≠ some true)
    (hp : t.isPattern = true) (ha : t.isAdditive = none) :
    incrToCum t = { t with isCum := some true, values := t.cumProdVals } ∧
    ∀ i < t.values.d0, ∀ c < t.values.d1, ∀ o < t.values.d2, ∀ d < t.values.d3,
      t.cumProdVals.get i c o d =
        Num.fin (∏ j ∈ Finset.Ico d t.values.d3,
          (if (t.values.get i c o j).amt = 0 then 1 else (t.values.get i c o j).amt)) *
          t.nanTri o d := by
  constructor
  · simp [incrToCum, hc, hp, ha]
  · intro i hi c hcc o ho d hd
    show (∏ j ∈ Finset.Ico d t.values.d3, factor (t.values.get i c o j)) * _ = _
    rw [← Num.prod_fin]
    congr 1
    apply Finset.prod_congr rfl
    intro j hj
    exact factor_eq (hf i hi c hcc o ho j (by simp at hj; omega))

/-- Cell-wise description of `cum_to_incr` for patterns. -/
theorem cumToIncr_pattern_cells {t : Tri K} (wf : WF t) (ho : Ordered t) (hu : Dated t)
    (hc : t.isCum ≠ some false) (hp : t.isPattern = true) (h3 : 2 ≤ t.values.d3)
    (hn : t.ddims.Nodup) :
    ∃ u, cumToIncr t = .ok u ∧ u = { t with
        isCum := some false
        values := u.values } ∧ Arr.SameShape u.values t.values ∧
      ∀ i c o d, t.values.In i c o d → u.values.get i c o d =
        (if d + 1 < t.values.d3 then
            factor (t.values.get i c o d) / factor (t.values.get i c o (d + 1))
          else factor (t.values.get i c o d)) * t.nanTri o d := by
  obtain ⟨w0, w1, w2, w3⟩ := wf
  set po := List.range t.values.d2 with hpo
  set s : Tri K := { t with values := t.values.map fun x => x.nanToNum.numToValue 1 } with hs
  have hos : Ordered s := ho
  have hus : Dated s := hu
  have hpo' : ∀ p ∈ po, p < s.odims.length := by intro p hp; show p < t.odims.length; rw [← w2]; simpa [hpo] using hp
  have hd3 : s.values.d3 = t.values.d3 := rfl
  have hdl : s.ddims.length = t.values.d3 := w3.symm
  obtain ⟨vb, eb, vb1, vb2, vb3⟩ := pick_contig hos hus (List.range t.values.d0)
    (List.range t.values.d1) po (t.values.d3 - 1) 1 hpo' (by omega) (by omega)
  obtain ⟨va, ea, va1, va2, va3⟩ := pick_contig hos hus (List.range t.values.d0)
    (List.range t.values.d1) po (t.values.d3 - 1) 0 hpo' (by omega) (by omega)
  obtain ⟨vf, ef, vf1, vf2, vf3⟩ := pick_contig hos hus (List.range t.values.d0)
    (List.range t.values.d1) po 1 (t.values.d3 - 1) hpo' (by omega) (by omega)
  have i1 := ilocD_from s 1
  have i2 := ilocD_upto_neg s 1 (by omega) (by omega)
  have i3 := ilocD_last s (by omega)
  have r0 : (List.range (t.values.d3 - 1)).map (· + 0) = List.range (t.values.d3 - 1) := by simp
  have r1 : (List.range 1).map (· + (t.values.d3 - 1)) = [t.values.d3 - 1] := by simp
  rw [r0] at ea
  rw [r1] at ef
  have i1 : s.ilocD (.from 1) = _ := i1.trans eb
  have i2 : s.ilocD (.upto (-1)) = _ := i2.trans ea
  have i3 : s.ilocD (.int (-1)) = _ := i3.trans ef
  set pb := (List.range (t.values.d3 - 1)).map (· + 1) with hpb
  set B := s.picked (List.range t.values.d0) (List.range t.values.d1) po pb vb with hB
  set A := s.picked (List.range t.values.d0) (List.range t.values.d1) po
    (List.range (t.values.d3 - 1)) va with hA
  set F := s.picked (List.range t.values.d0) (List.range t.values.d1) po [t.values.d3 - 1] vf
    with hF
  have hsh : Arr.SameShape A.values B.values := by
    simp [hB, hA, picked, Arr.take, Arr.SameShape, hpb]
  have hdiv : A.divArr B.values = .ok ({ A with values := { A.values with
      get := fun i c o d =>
        A.values.get i c o d / B.values.get i c o d } } : Tri K) := by
    simp only [divArr, zipArr, Arr.zip_same _ hsh, bind, Except.bind]
  set D := ({ A with values := { A.values with
      get := fun i c o d =>
        A.values.get i c o d / B.values.get i c o d } } : Tri K) with hD
  have hdd : D.ddims ++ F.ddims = t.ddims := by
    show (List.range (t.values.d3 - 1)).map (t.ddims.getD · 0) ++
      [t.values.d3 - 1].map (t.ddims.getD · 0) = t.ddims
    rw [← List.map_append]
    have : List.range (t.values.d3 - 1) ++ [t.values.d3 - 1] = List.range t.values.d3 := by
      have e : t.values.d3 = (t.values.d3 - 1) + 1 := by omega
      conv_rhs => rw [e]
      rw [List.range_succ]
    rw [this]; exact getD_getD_range _ _ _ w3
  have hcat := concat_dev (a := D) (b := F) rfl rfl rfl rfl rfl rfl rfl (by rw [hdd]; exact hn)
  have hres : ∃ r : Tri K, concat .development [D, F] = .ok r ∧
      cumToIncr t = .ok { r with
        values := { r.values with
          get := fun i c o d => r.values.get i c o d * r.nanTri o d }
        isCum := some false, vd := t.vd } := by
    refine ⟨_, hcat, ?_⟩
    unfold cumToIncr
    rw [if_neg hc, if_pos hp]
    simp only [← hs, i1, i2, i3, hdiv, hcat, bind, Except.bind, pure, Except.pure]
  obtain ⟨r, hr, hres⟩ := hres
  have hr' := hcat.symm.trans hr
  injection hr' with hr'
  subst hr'
  refine ⟨_, hres, ?_⟩
  have e1 : D.kdims = t.kdims := getD_getD_range _ _ _ w0
  have e2 : D.vdims = t.vdims := getD_getD_range _ _ _ w1
  have e3 : D.odims = t.odims := getD_getD_range _ _ _ w2
  refine ⟨?_, ?_, ?_⟩
  · rw [hdd, e1, e2, e3]
    rfl
  · refine ⟨by simp [hD, hA, picked, Arr.take], by simp [hD, hA, picked, Arr.take],
      by simp [hD, hA, hpo, picked, Arr.take], ?_⟩
    show (List.range (t.values.d3 - 1)).length + 1 = t.values.d3
    simp; omega
  · rintro i c o d ⟨b0, b1, b2, b3⟩
    show (if d < (List.range (t.values.d3 - 1)).length then A.values.get i c o d / B.values.get i c o d
      else F.values.get i c o (d - (List.range (t.values.d3 - 1)).length)) * nanTri _ o d = _
    rw [List.length_range]
    have gM : nanTri ({ D with
        values := { D.values with
          d3 := D.values.d3 + F.values.d3
          get := fun i c o d =>
            if d < D.values.d3 then D.values.get i c o d
            else F.values.get i c o (d - D.values.d3) }
        vd := max D.vd F.vd
        ddims := D.ddims ++ F.ddims } : Tri K) o d = t.nanTri o d := by
      unfold nanTri
      have s2 : D.values.d2 = t.values.d2 := by simp [hD, hA, picked, Arr.take, hpo]
      have s3 : D.values.d3 + F.values.d3 = t.values.d3 := by
        show (List.range (t.values.d3 - 1)).length + 1 = t.values.d3
        simp; omega
      show (if min D.values.d2 (D.values.d3 + F.values.d3) = 1 then (1 : Num K)
        else if valuationOf t.isVal D.odims (D.ddims ++ F.ddims) (max va vf) o d > max va vf
          then .nan else 1) = _
      rw [s2, s3, hdd, e3]
      have hom : t.odims.getD o 0 ∈ t.odims := by
        have : o < t.odims.length := by omega
        rw [List.getD_eq_getElem _ _ this]; exact List.getElem_mem this
      have hval : valuationOf t.isVal t.odims t.ddims (max va vf) o d = t.valuation o d := by
        unfold valuation valuationOf
        rcases Bool.eq_false_or_eq_true t.isVal with hv | hv
        · simp [hv]
        · have h1 := (ho hv).1 _ hom
          have h2 := va2 hv o (by simpa [hpo] using b2)
          have h2 : t.odims.getD o 0 ≤ va := h2
          rw [min_eq_left h1, min_eq_left (le_trans h2 (le_max_left _ _))]
      have hcmp : t.valuation o d > max va vf ↔ t.valuation o d > t.vd := by
        have hva : va ≤ t.vd := va1
        have hvf : vf ≤ t.vd := vf1
        constructor
        · intro hgt
          by_cases hd : d < t.values.d3 - 1
          · have := va3 o d (by simpa [hpo] using b2) hd
            rw [getD_range _ _ b2] at this
            have : t.valuation o d > va ↔ t.valuation o d > t.vd := this
            exact this.1 (lt_of_le_of_lt (le_max_left _ _) hgt)
          · have := vf3 o 0 (by simpa [hpo] using b2) (by omega)
            rw [getD_range _ _ b2, show 0 + (t.values.d3 - 1) = d by omega] at this
            have : t.valuation o d > vf ↔ t.valuation o d > t.vd := this
            exact this.1 (lt_of_le_of_lt (le_max_right _ _) hgt)
        · intro hgt
          exact lt_of_le_of_lt (max_le hva hvf) hgt
      rw [hval]
      simp only [hcmp]
    rw [gM]
    congr 1
    have gA : d < t.values.d3 - 1 → A.values.get i c o d = factor (t.values.get i c o d) := by
      intro hd
      show factor (t.values.get ((List.range _).getD i 0) ((List.range _).getD c 0) (po.getD o 0)
        ((List.range _).getD d 0)) = _
      rw [getD_range _ _ b0, getD_range _ _ b1, getD_range _ _ b2, getD_range _ _ (by omega)]
    have gB : d < t.values.d3 - 1 → B.values.get i c o d = factor (t.values.get i c o (d + 1)) := by
      intro hd
      show factor (t.values.get ((List.range _).getD i 0) ((List.range _).getD c 0) (po.getD o 0)
        (pb.getD d 0)) = _
      rw [getD_range _ _ b0, getD_range _ _ b1, getD_range _ _ b2, getD_range_add _ _ _ (by omega)]
    have gF : ¬ d < t.values.d3 - 1 → F.values.get i c o (d - (t.values.d3 - 1)) =
        factor (t.values.get i c o d) := by
      intro hd
      show factor (t.values.get ((List.range _).getD i 0) ((List.range _).getD c 0) (po.getD o 0)
        ([t.values.d3 - 1].getD (d - (t.values.d3 - 1)) 0)) = _
      rw [getD_range _ _ b0, getD_range _ _ b1, getD_range _ _ b2]
      have : d - (t.values.d3 - 1) = 0 := by omega
      rw [this]
      simp only [List.getD_cons_zero]
      congr 2; omega
    by_cases hd : d < t.values.d3 - 1
    · rw [if_pos hd, if_pos (by omega), gA hd, gB hd]
    · rw [if_neg hd, if_neg (by omega), gF hd]

end Tri
end CL
