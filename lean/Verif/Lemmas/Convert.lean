import Verif.Model.Convert
import Verif.Lemmas.Concat
import Verif.Spec.Amounts

set_option linter.unusedSectionVars false

namespace CL
namespace Arr
variable {K : Type}

theorem bdim_self (m : Nat) : bdim m m = some m := by simp [bdim]
theorem bix_self (m i : Nat) : bix m m i = i := by simp [bix]

theorem zip_same (f : Num K → Num K → Num K) {a b : Arr K} (h : SameShape a b) :
    zip f a b = .ok { a with get := fun i c o d => f (a.get i c o d) (b.get i c o d) } := by
  obtain ⟨h0, h1, h2, h3⟩ := h
  unfold zip
  rw [← h0, ← h1, ← h2, ← h3]
  simp only [bdim_self, bix_self]

theorem zip_scalar [Field K] [LinearOrder K] (f : Num K → Num K → Num K) (a : Arr K) (x : Num K) :
    zip f a (scalar x) = .ok { a with get := fun i c o d => f (a.get i c o d) x } := by
  have : ∀ m, bdim m 1 = some m := by
    intro m; unfold bdim; split_ifs <;> simp_all
  unfold zip scalar const
  simp only [this, bix_self]

end Arr

namespace Tri
variable {K : Type} [Field K] [LinearOrder K] [IsStrictOrderedRing K]

/-- The mask `cum_to_incr` multiplies its differences with. -/
def diffMask (t : Tri K) (o d : Nat) : Num K :=
  if min t.values.d2 (t.values.d3 - 1) = 1 then 1
  else if t.valuation o d > t.vd then .nan else 1

theorem getD_getD_range {α : Type} (l : List α) (x : α) (n : Nat) (h : n = l.length) :
    (List.range n).map (l.getD · x) = l := by subst h; exact map_getD_range l x

/-- Cell-wise description of `cum_to_incr` for ordinary (non-pattern) triangles. -/
theorem cumToIncr_cells {t : Tri K} (wf : WF t) (ho : Ordered t) (hu : Dated t)
    (hc : t.isCum ≠ some false) (hp : t.isPattern = false) (h3 : 2 ≤ t.values.d3)
    (hn : t.ddims.Nodup) :
    ∃ u, cumToIncr t = .ok u ∧ u = { t with
        isCum := some false
        values := u.values } ∧ Arr.SameShape u.values t.values ∧
      ∀ i c o d, t.values.In i c o d → u.values.get i c o d =
        if d = 0 then t.values.get i c o 0
        else (((t.values.get i c o d).nanToNum - (t.values.get i c o (d - 1)).nanToNum) *
          (t.diffMask o d).nanToNum).numToNan := by
  obtain ⟨w0, w1, w2, w3⟩ := wf
  set po := List.range t.values.d2 with hpo
  have hpo' : ∀ p ∈ po, p < t.odims.length := by intro p hp; rw [← w2]; simpa [hpo] using hp
  obtain ⟨vb, eb, vb1, vb2, vb3⟩ := pick_contig ho hu (List.range t.values.d0)
    (List.range t.values.d1) po (t.values.d3 - 1) 1 hpo' (by omega) (by omega)
  obtain ⟨va, ea, va1, va2, va3⟩ := pick_contig ho hu (List.range t.values.d0)
    (List.range t.values.d1) po (t.values.d3 - 1) 0 hpo' (by omega) (by omega)
  obtain ⟨vf, ef, vf1, vf2, vf3⟩ := pick_contig ho hu (List.range t.values.d0)
    (List.range t.values.d1) po 1 0 hpo' (by omega) (by omega)
  have i1 := ilocD_from t 1
  have i2 := ilocD_upto_neg t 1 (by omega) (by omega)
  have i3 := ilocD_nat t 0 (by omega)
  have r0 : (List.range (t.values.d3 - 1)).map (· + 0) = List.range (t.values.d3 - 1) := by simp
  have r1 : (List.range 1).map (· + 0) = [0] := by simp
  rw [r0] at ea
  rw [r1] at ef
  rw [eb] at i1
  rw [Nat.cast_one] at i1 i2
  rw [ea] at i2
  rw [ef] at i3
  rw [Nat.cast_zero] at i3
  set pb := (List.range (t.values.d3 - 1)).map (· + 1) with hpb
  set B := t.picked (List.range t.values.d0) (List.range t.values.d1) po pb vb with hB
  set A := t.picked (List.range t.values.d0) (List.range t.values.d1) po
    (List.range (t.values.d3 - 1)) va with hA
  set F := t.picked (List.range t.values.d0) (List.range t.values.d1) po [0] vf with hF
  have hsh : Arr.SameShape B.values A.values := by
    simp [hB, hA, picked, Arr.take, Arr.SameShape, hpb]
  have hsub : B.subArr A.values = .ok ({ B with values := { B.values with get := fun i c o d =>
      (B.values.get i c o d).nanToNum - (A.values.get i c o d).nanToNum } } : Tri K).cleanup := by
    simp only [subArr, zipArr, Arr.zip_same _ hsh, bind, Except.bind]
  set D := ({ B with values := { B.values with get := fun i c o d =>
      (B.values.get i c o d).nanToNum - (A.values.get i c o d).nanToNum } } : Tri K).cleanup with hD
  have hdd : F.ddims ++ D.ddims = t.ddims := by
    show ([0].map (t.ddims.getD · 0)) ++ pb.map (t.ddims.getD · 0) = t.ddims
    rw [← List.map_append]
    have : [0] ++ pb = List.range t.values.d3 := by
      have e : t.values.d3 = (t.values.d3 - 1) + 1 := by omega
      conv_rhs => rw [e]
      rw [List.range_succ_eq_map]; simp [hpb]
    rw [this]; exact getD_getD_range _ _ _ w3
  have hcat := concat_dev (a := F) (b := D) rfl rfl rfl rfl rfl rfl rfl (by rw [hdd]; exact hn)
  have hres : ∃ r : Tri K, concat .development [F, D] = .ok r ∧
      cumToIncr t = .ok { r with isCum := some false, vd := t.vd } := by
    refine ⟨_, hcat, ?_⟩
    simp only [cumToIncr, hc, if_false, hp, Bool.false_eq_true, i1, i2, i3, hsub, hcat, bind,
      Except.bind]
  obtain ⟨r, hr, hres⟩ := hres
  have hr' := hcat.symm.trans hr
  injection hr' with hr'
  subst hr'
  refine ⟨_, hres, ?_⟩
  · refine ⟨?_, ?_, ?_⟩
    · have e1 : F.kdims = t.kdims := getD_getD_range _ _ _ w0
      have e2 : F.vdims = t.vdims := getD_getD_range _ _ _ w1
      have e3 : F.odims = t.odims := getD_getD_range _ _ _ w2
      rw [hdd, e1, e2, e3]
      rfl
    · refine ⟨by simp [hF, picked, Arr.take], by simp [hF, picked, Arr.take],
        by simp [hF, hpo, picked, Arr.take], ?_⟩
      show 1 + pb.length = t.values.d3
      simp [hpb]; omega
    · rintro i c o d ⟨b0, b1, b2, b3⟩
      have gF : ∀ d', F.values.get i c o d' = t.values.get i c o ([0].getD d' 0) := by
        intro d'
        show t.values.get ((List.range _).getD i 0) ((List.range _).getD c 0) (po.getD o 0) _ = _
        rw [getD_range _ _ b0, getD_range _ _ b1, getD_range _ _ b2]
      show (if d < 1 then F.values.get i c o d else D.values.get i c o (d - 1)) = _
      by_cases h0 : d = 0
      · subst h0; simp [gF]
      · have hd1 : ¬ d < 1 := by omega
        rw [if_neg hd1, if_neg h0]
        show (((B.values.get i c o (d - 1)).nanToNum - (A.values.get i c o (d - 1)).nanToNum) *
          (nanTri _ o (d - 1)).nanToNum).numToNan = _
        have gB : B.values.get i c o (d - 1) = t.values.get i c o d := by
          show t.values.get ((List.range _).getD i 0) ((List.range _).getD c 0) (po.getD o 0)
            (pb.getD (d - 1) 0) = _
          rw [getD_range _ _ b0, getD_range _ _ b1, getD_range _ _ b2,
            getD_range_add _ _ _ (by omega)]
          congr 1; omega
        have gA : A.values.get i c o (d - 1) = t.values.get i c o (d - 1) := by
          show t.values.get ((List.range _).getD i 0) ((List.range _).getD c 0) (po.getD o 0)
            ((List.range _).getD (d - 1) 0) = _
          rw [getD_range _ _ b0, getD_range _ _ b1, getD_range _ _ b2, getD_range _ _ (by omega)]
        have gM : nanTri ({ B with values := { B.values with get := fun i c o d =>
            (B.values.get i c o d).nanToNum - (A.values.get i c o d).nanToNum } } : Tri K)
            o (d - 1) = t.diffMask o d := by
          unfold nanTri diffMask
          have s2 : B.values.d2 = t.values.d2 := by simp [hB, picked, Arr.take, hpo]
          have s3 : B.values.d3 = t.values.d3 - 1 := by simp [hB, picked, Arr.take, hpb]
          have hval := valuation_picked_contig ho (List.range t.values.d0) (List.range t.values.d1)
            po (t.values.d3 - 1) 1 vb hpo' (by omega) (by omega) vb2
            (o := o) (d := d - 1) (by simpa [hpo] using b2) (by omega)
          have hcmp := vb3 o (d - 1) (by simpa [hpo] using b2) (by omega)
          have e1 : d - 1 + 1 = d := by omega
          rw [e1] at hval hcmp
          rw [getD_range _ _ b2] at hval hcmp
          show (if min B.values.d2 B.values.d3 = 1 then (1 : Num K)
            else if B.valuation o (d - 1) > vb then .nan else 1) = _
          rw [s2, s3, hval]
          simp only [hcmp]
        rw [gB, gA, gM]

theorem nanTri_eq (t : Tri K) (o d : Nat) : t.nanTri o d = 1 ∨
    (t.nanTri o d = .nan ∧ t.valuation o d > t.vd) := by
  unfold nanTri; split_ifs with h1 h2 <;> simp [*]

/-- Cell-wise description of `incr_to_cum` for ordinary triangles. -/
theorem incrToCum_cells {t : Tri K} (hf : Finite t) (hc : t.isCum ≠ some true)
    (hp : t.isPattern = false) :
    incrToCum t = { t with isCum := some true, values := t.cumSumVals } ∧
    ∀ i < t.values.d0, ∀ c < t.values.d1, ∀ o < t.values.d2, ∀ d < t.values.d3,
      t.cumSumVals.get i c o d =
        (Num.fin (∑ j ∈ Finset.range (d + 1), (t.values.get i c o j).amt) *
          t.nanTri o d).numToNan := by
  constructor
  · simp [incrToCum, hc, hp]
  · intro i hi c hcc o ho d hd
    show ((∑ j ∈ Finset.range (d + 1), (t.values.get i c o j).nanToNum) * _).numToNan = _
    rw [Num.sum_nanToNum]
    intro j hj
    exact hf i hi c hcc o ho j (by simp at hj; omega)

end Tri
end CL
