import Verif.Lemmas.GroupArith
import Verif.Spec.Examples

set_option linter.unusedSectionVars false

/-! # C78: arithmetic with a triangle aggregated over some index labels -/

namespace CL
namespace Tri
variable {K : Type} [Field K] [LinearOrder K] [IsStrictOrderedRing K]

/-- Row `i` of `x` has the same entries as row `j` of `y` under the labels both have. -/
def SharesKey (x : Tri K) (i : Nat) (y : Tri K) (j : Nat) : Prop :=
  ∀ p q l, x.keyLabels[p]? = some l → y.keyLabels[q]? = some l →
    (x.kdims.getD i []).getD p "" = (y.kdims.getD j []).getD q ""

/-- `y` has some of the index labels of `x` and otherwise its axes, and each row of `y` has a row of `x`.  `labels` and `keys` list sets in any order. -/
structure Aggregate (x y : Tri K) (labels : List String) (keys : List (List String)) : Prop where
  wx : WF x
  wy : WF y
  ograin : x.ograin = y.ograin
  dgrain : x.dgrain = y.dgrain
  isVal : x.isVal = y.isVal
  vdims : x.vdims = y.vdims
  odims : x.odims = y.odims
  ddims : x.ddims = y.ddims
  dev : 1 ≤ x.ddims.length
  xrows : 1 < x.kdims.length
  yrows : 1 < y.kdims.length
  xlabels : x.keyLabels.Nodup
  ylabels : y.keyLabels.Nodup
  sub : ∀ l ∈ y.keyLabels, l ∈ x.keyLabels
  fewer : y.keyLabels.length < x.keyLabels.length
  xdistinct : x.kdims.Nodup
  ydistinct : y.kdims.Nodup
  yfull : ∀ r ∈ y.kdims, r.length = y.keyLabels.length
  used : ∀ j < y.kdims.length, ∃ i < x.kdims.length, SharesKey x i y j
  common : ∀ l, l ∈ labels ↔ l ∈ y.keyLabels
  knodup : keys.Nodup
  keys : ∀ k, k ∈ keys ↔ k ∈ x.rowKeys labels ∨ k ∈ y.rowKeys labels

theorem at_idxOf {l : List String} {a : String} (h : a ∈ l) : l[l.idxOf a]? = some a := by
  have := List.idxOf_lt_length_of_mem h
  rw [List.getElem?_eq_getElem this, List.getElem_idxOf]

theorem pos_unique {l : List String} (hn : l.Nodup) {p : Nat} {a : String} (h : l[p]? = some a) : p = l.idxOf a := by
  obtain ⟨h1, h2⟩ := List.getElem?_eq_some_iff.mp h
  have hm : a ∈ l := h2 ▸ List.getElem_mem h1
  have h3 := at_idxOf hm
  obtain ⟨h4, h5⟩ := List.getElem?_eq_some_iff.mp h3
  exact (hn.getElem_inj_iff).mp (h2.trans h5.symm)

theorem rowKeys_at (t : Tri K) (labels : List String) {i : Nat} (h : i < t.kdims.length) :
    (t.rowKeys labels)[i]? = some (labels.map fun l => (t.kdims.getD i []).getD (t.keyLabels.idxOf l) "") := by
  unfold rowKeys
  rw [List.getElem?_map, List.getElem?_eq_getElem h, List.getD_eq_getElem _ _ h]
  rfl

theorem key_iff {x y : Tri K} {labels : List String} {keys : List (List String)} (h : Aggregate x y labels keys)
    {i j : Nat} (hi : i < x.kdims.length) (hj : j < y.kdims.length) :
    (x.rowKeys labels)[i]? = (y.rowKeys labels)[j]? ↔ SharesKey x i y j := by
  rw [rowKeys_at x labels hi, rowKeys_at y labels hj, Option.some_inj, List.map_inj_left]
  constructor
  · intro e p q l hp hq
    have hq' : l ∈ y.keyLabels := List.mem_of_getElem? hq
    have := e l ((h.common l).mpr hq')
    rwa [← pos_unique h.xlabels hp, ← pos_unique h.ylabels hq] at this
  · intro e l hl
    have hy := (h.common l).mp hl
    exact e _ _ l (at_idxOf (h.sub l hy)) (at_idxOf hy)

theorem ykeys_nodup {x y : Tri K} {labels : List String} {keys : List (List String)}
    (h : Aggregate x y labels keys) : (y.rowKeys labels).Nodup := by
  unfold rowKeys
  refine List.Nodup.map_on ?_ h.ydistinct
  intro r hr s hs e
  rw [List.map_inj_left] at e
  apply List.ext_getElem ((h.yfull r hr).trans (h.yfull s hs).symm)
  intro q h1 h2
  have hq : q < y.keyLabels.length := by rw [← h.yfull r hr]; exact h1
  have := e y.keyLabels[q] ((h.common _).mpr (List.getElem_mem hq))
  rw [← pos_unique h.ylabels (List.getElem?_eq_getElem hq), List.getD_eq_getElem _ _ h1,
    List.getD_eq_getElem _ _ h2] at this
  exact this

theorem group_single {κ : Type} [LinearOrder κ] {rows : List κ} (hn : rows.Nodup) {j : Nat} {k : κ}
    (h : rows[j]? = some k) : groupIndices rows k = [j] := by
  obtain ⟨hj, e⟩ := List.getElem?_eq_some_iff.mp h
  rw [← List.perm_singleton, List.perm_ext_iff_of_nodup ((groupIndices_inc rows k).imp fun h => Nat.ne_of_lt h)
    (List.nodup_singleton _)]
  intro i
  rw [List.mem_singleton]
  unfold groupIndices
  rw [List.mem_filter, List.mem_range, decide_eq_true_eq]
  constructor
  · rintro ⟨hi, e'⟩
    rw [List.getElem?_eq_getElem hi, Option.some_inj] at e'
    exact (hn.getElem_inj_iff).mp (e'.trans e.symm)
  · rintro rfl
    exact ⟨hj, h⟩

/-- The amounts a group is combined with: those of its row, or zero times those of the first row. -/
def mateCell (y : Tri K) (labels k : List String) (c o d : Nat) : Num K :=
  (groupIndices (y.rowKeys labels) k).head?.elim (y.values.get 0 c o d * 0) fun j => y.values.get j c o d

/-- What one group contributes. -/
structure GroupPart (f : Num K → Num K → Num K) (x y : Tri K) (labels k : List String) (b : Tri K) : Prop where
  wf : WF b
  kdims : b.kdims = (groupIndices (x.rowKeys labels) k).map (x.kdims.getD · [])
  keyLabels : b.keyLabels = x.keyLabels
  vdims : b.vdims = x.vdims
  odims : b.odims = x.odims
  ddims : b.ddims = x.ddims
  isVal : b.isVal = x.isVal
  cells : ∀ i (hi : i < (groupIndices (x.rowKeys labels) k).length),
    ∀ c < x.vdims.length, ∀ o < x.odims.length, ∀ d < x.ddims.length,
      b.values.get i c o d = f (x.values.get (groupIndices (x.rowKeys labels) k)[i] c o d) (mateCell y labels k c o d)

/-- An operation that combines a triangle cell by cell with a single row. -/
def Cellwise (f : Num K → Num K → Num K) (op : Tri K → Tri K → Except Err (Tri K)) : Prop :=
  ∀ x y, OneRow x y → op x y = .ok (rowCombined f x y)

theorem range_getD' {n i : Nat} (h : i < n) : (List.range n).getD i 0 = i := by
  rw [List.getD_eq_getElem _ _ (by simpa using h), List.getElem_range]

theorem group_part {f : Num K → Num K → Num K} {op : Tri K → Tri K → Except Err (Tri K)} (ho : Cellwise f op)
    {x y : Tri K} {labels : List String} {keys : List (List String)} (h : Aggregate x y labels keys)
    {k : List String} (hx : k ∈ x.rowKeys labels) :
    ∃ b, (do
      let a ← x.sliceOrNan y labels k
      let b ← y.sliceOrNan x labels k
      op a b) = .ok b ∧ GroupPart f x y labels k b := by
  have lx : (x.rowKeys labels).length = x.kdims.length := by simp [rowKeys]
  have ly : (y.rowKeys labels).length = y.kdims.length := by simp [rowKeys]
  obtain ⟨v1, e1⟩ := ilocAx_rows h.wx h.dev (groupIndices_ne_nil hx)
    (fun i hi => by rw [← lx]; exact groupIndices_lt hi) ((groupIndices_inc _ _).imp fun h => Nat.ne_of_lt h)
  have h1 : x.sliceOrNan y labels k = .ok (x.rowsOf (groupIndices (x.rowKeys labels) k) v1) := by
    unfold sliceOrNan; rw [if_pos hx, e1]
  have hpos : 1 ≤ (x.rowsOf (groupIndices (x.rowKeys labels) k) v1).kdims.length := by
    show 1 ≤ ((groupIndices (x.rowKeys labels) k).map _).length
    rw [List.length_map]
    exact List.length_pos_iff.mpr (groupIndices_ne_nil hx)
  -- the row of `y`, or zeros
  obtain ⟨s, h2, hone, hs⟩ : ∃ s, y.sliceOrNan x labels k = .ok s ∧
      OneRow (x.rowsOf (groupIndices (x.rowKeys labels) k) v1) s ∧
      ∀ c < x.vdims.length, ∀ o < x.odims.length, ∀ d < x.ddims.length,
        s.values.get 0 c o d = mateCell y labels k c o d := by
    have c1 : y.values.d1 = x.vdims.length := by rw [h.wy.2.1, h.vdims]
    have c2 : y.values.d2 = x.odims.length := by rw [h.wy.2.2.1, h.odims]
    have c3 : y.values.d3 = x.ddims.length := by rw [h.wy.2.2.2, h.ddims]
    by_cases hy : k ∈ y.rowKeys labels
    · obtain ⟨j, hj⟩ := List.mem_iff_getElem?.mp hy
      have gy := group_single (ykeys_nodup h) hj
      obtain ⟨v2, e2⟩ := ilocAx_rows h.wy (h.ddims ▸ h.dev) (groupIndices_ne_nil hy)
        (fun i hi => by rw [← ly]; exact groupIndices_lt hi) ((groupIndices_inc _ _).imp fun h => Nat.ne_of_lt h)
      refine ⟨y.rowsOf [j] v2, ?_, ⟨wf_rowsOf h.wx _ _, wf_rowsOf h.wy _ _, hpos, rfl, h.fewer, h.ograin, h.dgrain,
        h.isVal, h.vdims, h.odims, h.ddims⟩, ?_⟩
      · unfold sliceOrNan; rw [if_pos hy, e2, gy]
      · intro c hc o ho d hd
        simp only [mateCell, gy, rowsOf, Arr.take, c1, c2, c3, range_getD' hc, range_getD' ho, range_getD' hd]
        rfl
    · have hyn : groupIndices (y.rowKeys labels) k = [] := by
        rw [List.eq_nil_iff_forall_not_mem]
        intro i hi
        have := key_of_mem hi
        exact hy (List.mem_iff_getElem?.mpr ⟨i, this⟩)
      have h0 : 1 ≤ y.values.d0 := by rw [h.wy.1]; have := h.yrows; omega
      obtain ⟨v2, e2⟩ := ilocAx_of_sel h.wy (h.ddims ▸ h.dev) (selS_upto y.values.d0 1 h0).sel
      have hall : (y.keyLabels.all fun l => x.keyLabels.contains l) = true := by
        rw [List.all_eq_true]
        intro l hl
        simpa using h.sub l hl
      have e2' : y.ilocAx .index (.upto 1) = .ok (y.rowsOf (List.range 1) v2) := e2
      unfold sliceOrNan
      rw [if_neg hy, if_pos hall, e2']
      simp only [bind, Except.bind, mulArr, zipArr, Arr.zip_scalar]
      have w := wf_rowsOf h.wy (List.range 1) v2
      refine ⟨_, rfl, ⟨wf_rowsOf h.wx _ _, ⟨by rw [show (1 : Nat) = 1 from rfl]; exact w.1, w.2.1, w.2.2.1, w.2.2.2⟩, hpos, rfl, h.fewer,
        h.ograin, h.dgrain, h.isVal, h.vdims, h.odims, h.ddims⟩, ?_⟩
      intro c hc o ho d hd
      simp only [mateCell, hyn, rowsOf, Arr.take, c1, c2, c3, range_getD' hc, range_getD' ho, range_getD' hd]
      rfl
  refine ⟨rowCombined f (x.rowsOf (groupIndices (x.rowKeys labels) k) v1) s, ?_, ?_⟩
  · rw [h1, h2]
    exact ho _ _ hone
  · have w := hone.wx
    refine ⟨⟨w.1, w.2.1, w.2.2.1, w.2.2.2⟩, rfl, rfl, rfl, rfl, rfl, rfl, ?_⟩
    intro i hi c hc o ho d hd
    have c1 : s.values.d1 = x.values.d1 := by
      rw [h.wx.2.1, hone.wy.2.1, ← hone.vdims]; rfl
    have c2 : s.values.d2 = x.values.d2 := by
      rw [h.wx.2.2.1, hone.wy.2.2.1, ← hone.odims]; rfl
    have c3 : s.values.d3 = x.values.d3 := by
      rw [h.wx.2.2.2, hone.wy.2.2.2, ← hone.ddims]; rfl
    have c0 : s.values.d0 = 1 := by rw [hone.wy.1, hone.one]
    have q1 : c < x.values.d1 := by rw [h.wx.2.1]; exact hc
    have q2 : o < x.values.d2 := by rw [h.wx.2.2.1]; exact ho
    have q3 : d < x.values.d3 := by rw [h.wx.2.2.2]; exact hd
    have b0 : Arr.bix 1 (groupIndices (x.rowKeys labels) k).length i = 0 := by
      unfold Arr.bix
      split_ifs with e
      · omega
      · rfl
    simp only [rowCombined, rowsOf, Arr.take, List.length_range, c0, c1, c2, c3, b0]
    simp only [Arr.bix, if_true, range_getD' q1, range_getD' q2, range_getD' q3]
    rw [hs c hc o ho d hd, List.getD_eq_getElem _ _ hi]

/-- The result of combining each row of `x` with its row of `y`, in the order of the keys; a row without
one meets zero times the first row of `y`. -/
structure RowsCombined (f : Num K → Num K → Num K) (x y u : Tri K) : Prop where
  wf : WF u
  rows : u.kdims.Perm x.kdims
  sorted : u.kdims.Pairwise (· ≤ ·)
  keyLabels : u.keyLabels = x.keyLabels
  vdims : u.vdims = x.vdims
  odims : u.odims = x.odims
  ddims : u.ddims = x.ddims
  isVal : u.isVal = x.isVal
  cells : ∀ n i j, i < x.kdims.length → j < y.kdims.length → u.kdims[n]? = x.kdims[i]? → SharesKey x i y j →
    ∀ c < x.vdims.length, ∀ o < x.odims.length, ∀ d < x.ddims.length,
      u.values.get n c o d = f (x.values.get i c o d) (y.values.get j c o d)
  missing : ∀ n i, i < x.kdims.length → u.kdims[n]? = x.kdims[i]? → (∀ j < y.kdims.length, ¬ SharesKey x i y j) →
    ∀ c < x.vdims.length, ∀ o < x.odims.length, ∀ d < x.ddims.length,
      u.values.get n c o d = f (x.values.get i c o d) (y.values.get 0 c o d * 0)

theorem groupOp_ok {f : Num K → Num K → Num K} {op : Tri K → Tri K → Except Err (Tri K)} (ho : Cellwise f op)
    {x y : Tri K} {labels : List String} {keys : List (List String)} (h : Aggregate x y labels keys) :
    ∃ u, groupOp op labels keys x y = .ok u ∧ RowsCombined f x y u := by
  have lx : (x.rowKeys labels).length = x.kdims.length := by simp [rowKeys]
  have ly : (y.rowKeys labels).length = y.kdims.length := by simp [rowKeys]
  have both : ∀ k ∈ keys, k ∈ x.rowKeys labels := by
    intro k hk
    rcases (h.keys k).mp hk with hx | hy
    · exact hx
    · obtain ⟨j, hj⟩ := List.mem_iff_getElem?.mp hy
      have hj' : j < y.kdims.length := by rw [← ly]; exact (List.getElem?_eq_some_iff.mp hj).1
      obtain ⟨i, hi, hs⟩ := h.used j hj'
      exact List.mem_iff_getElem?.mpr ⟨i, by rw [(key_iff h hi hj').mpr hs, hj]⟩
  have hex : ∀ k, ∃ b, k ∈ keys → (do
      let a ← x.sliceOrNan y labels k
      let b ← y.sliceOrNan x labels k
      op a b) = .ok b ∧ GroupPart f x y labels k b := by
    intro k
    by_cases hk : k ∈ keys
    · obtain ⟨b, hb⟩ := group_part ho h (both k hk)
      exact ⟨b, fun _ => hb⟩
    · exact ⟨x, fun hk' => absurd hk' hk⟩
  choose g hg using hex
  have hmap := mapM_ok (fun k => (do
      let a ← x.sliceOrNan y labels k
      let b ← y.sliceOrNan x labels k
      op a b : Except Err (Tri K))) g keys (fun k hk => (hg k hk).1)
  have hkx : ∀ k ∈ x.rowKeys labels, k ∈ keys := fun k hk => (h.keys k).mpr (Or.inl hk)
  have hkne : keys ≠ [] := by
    have : 0 < (x.rowKeys labels).length := by rw [lx]; have := h.xrows; omega
    obtain ⟨k, hk⟩ := List.exists_mem_of_length_pos this
    exact List.ne_nil_of_mem (hkx k hk)
  have hpp := groups_perm h.knodup hkx
  set P := keys.flatMap fun k => groupIndices (x.rowKeys labels) k with hP
  rw [lx] at hpp
  have hfm : (keys.map g).flatMap Tri.kdims = P.map (x.kdims.getD · []) := by
    rw [hP, List.flatMap_map, List.map_flatMap, ]
    apply List.flatMap_congr
    intro k hk
    exact (hg k hk).2.kdims
  have hperm : (P.map (x.kdims.getD · [])).Perm x.kdims := by
    have := hpp.map (x.kdims.getD · [])
    rwa [map_getD_range] at this
  have hmem : ∀ t ∈ keys.map g, ∃ k ∈ keys, t = g k := by
    intro t ht
    obtain ⟨k, hk, rfl⟩ := List.mem_map.mp ht
    exact ⟨k, hk, rfl⟩
  have hal : alignColumns .index (keys.map g) = .ok (keys.map g) := by
    unfold alignColumns
    rw [if_neg (by decide)]
    apply mapM_fill_id _ x.vdims
    intro t ht
    obtain ⟨k, hk, rfl⟩ := hmem t ht
    exact (hg k hk).2.vdims
  obtain ⟨v, ev, wv, labv, agv, colv, ⟨t0, rest, et, -, t1, t2, -⟩, cellv⟩ := concat_core (ax := .index)
    (by simpa using hkne) hal (by simpa using hkne)
    (by
      intro t ht
      obtain ⟨k, hk, rfl⟩ := hmem t ht
      exact (hg k hk).2.wf)
    (by
      intro s hs t ht
      obtain ⟨k, hk, rfl⟩ := hmem s hs
      obtain ⟨k', hk', rfl⟩ := hmem t ht
      have a := (hg k hk).2
      have b := (hg k' hk').2
      exact ⟨fun n => absurd rfl n, fun _ => b.odims.trans a.odims.symm,
        fun _ => ⟨b.ddims.trans a.ddims.symm, b.isVal.trans a.isVal.symm⟩⟩)
    (by
      intro _ s hs t ht
      obtain ⟨k, hk, rfl⟩ := hmem s hs
      obtain ⟨k', hk', rfl⟩ := hmem t ht
      exact (hg k' hk').2.vdims.trans (hg k hk).2.vdims.symm)
    (by
      show ((keys.map g).flatMap Tri.kdims).Nodup
      rw [hfm]
      exact hperm.nodup_iff.mpr h.xdistinct)
  have hk0 : t0 ∈ keys.map g := by rw [et]; simp
  obtain ⟨k0, hkk, rfl⟩ := hmem t0 hk0
  have g0 := (hg k0 hkk).2
  have vk : v.kdims = P.map (x.kdims.getD · []) := by rw [labv.1 rfl, hfm]
  have vv : v.vdims = x.vdims := by
    rw [colv (by decide) (g k0) (List.mem_map.mpr ⟨k0, hkk, rfl⟩), g0.vdims]
  have ag0 := agv (g k0) (List.mem_map.mpr ⟨k0, hkk, rfl⟩)
  have vo : v.odims = x.odims := by rw [← ag0.2.1 (by decide), g0.odims]
  have vd : v.ddims = x.ddims := by rw [← (ag0.2.2 (by decide)).1, g0.ddims]
  have vl : v.keyLabels = x.keyLabels := t2.trans g0.keyLabels
  have vi : v.isVal = x.isVal := t1.trans g0.isVal
  have lP : P.length = x.kdims.length := by rw [hpp.length_eq, List.length_range]
  have lv : v.kdims.length = x.kdims.length := by rw [vk, List.length_map, lP]
  have vcell : ∀ q (hq : q < P.length) k, (x.rowKeys labels)[P[q]]? = some k →
      ∀ c < x.vdims.length, ∀ o < x.odims.length, ∀ d < x.ddims.length,
      v.values.get q c o d = f (x.values.get P[q] c o d) (mateCell y labels k c o d) := by
    intro q hq k hj c hc o ho d hd
    obtain ⟨n, m, hn, hm, e1, e2⟩ := flatMap_at (fun k => groupIndices (x.rowKeys labels) k) keys q hq
    rw [List.getElem?_eq_getElem hq, Option.some_inj] at e2
    have hkn : keys[n] ∈ keys := List.getElem_mem hn
    have gp := (hg keys[n] hkn).2
    have hin : P[q] ∈ groupIndices (x.rowKeys labels) keys[n] := by rw [e2]; exact List.getElem_mem hm
    have hkey : (x.rowKeys labels)[P[q]]? = some keys[n] := by
      unfold groupIndices at hin
      simpa using (List.mem_filter.mp hin).2
    rw [hkey, Option.some_inj] at hj
    have dimk : ∀ k ∈ keys, (g k).values.dim .index = (groupIndices (x.rowKeys labels) k).length := by
      intro k hk
      show (g k).values.d0 = _
      rw [(hg k hk).2.wf.1, (hg k hk).2.kdims, List.length_map]
    have hsum : (((keys.map g).take n).map fun t => t.values.dim .index).sum =
        ((keys.take n).map fun k => (groupIndices (x.rowKeys labels) k).length).sum := by
      rw [← List.map_take, List.map_map]
      congr 1
      apply List.map_congr_left
      intro k hk
      exact dimk k (List.mem_of_mem_take hk)
    let p : Pos := fun b => match b with
      | .index => q
      | .columns => c
      | .origin => o
      | .development => d
    have hc' := cellv n (by simpa using hn) m (by simp only [List.getElem_map]; rw [dimk _ hkn]; exact hm) p
      (by rw [hsum]; exact e1)
    have hl : v.values.get q c o d = v.values.cell p := rfl
    rw [hl, hc']
    simp only [List.getElem_map]
    have := gp.cells m hm c hc o ho d hd
    rw [e2, ← hj]
    exact this
  obtain ⟨w, ew⟩ := sortIndex_spec wv (by rw [lv]; have := h.xrows; omega) (by rw [vd]; exact h.dev)
  have hrun : groupOp op labels keys x y = .ok { v with
      kdims := (sortPositions v.kdims).map (v.kdims.getD · [])
      vd := w
      values := v.values.take (sortPositions v.kdims) (List.range v.values.d1)
        (List.range v.values.d2) (List.range v.values.d3) } := by
    unfold groupOp
    rw [hmap]
    simp only [bind, Except.bind]
    rw [ev]
    exact ew
  refine ⟨_, hrun, ?_⟩
  · obtain ⟨w0, w1, w2, w3⟩ := wv
    have hsp : ((sortPositions v.kdims).map (v.kdims.getD · [])).Perm v.kdims := by
      have := (sortPositions_perm v.kdims).map (v.kdims.getD · [])
      rwa [map_getD_range] at this
    have final : ∀ n i (hi : i < x.kdims.length),
        ((sortPositions v.kdims).map (v.kdims.getD · []))[n]? = x.kdims[i]? →
        ∀ c < x.vdims.length, ∀ o < x.odims.length, ∀ d < x.ddims.length,
        (v.values.take (sortPositions v.kdims) (List.range v.values.d1)
          (List.range v.values.d2) (List.range v.values.d3)).get n c o d =
          f (x.values.get i c o d) (mateCell y labels ((x.rowKeys labels)[i]'(by rw [lx]; exact hi)) c o d) := by
      intro n i hi he c hc o ho d hd
      rw [List.getElem?_eq_getElem hi] at he
      obtain ⟨hn, e⟩ := List.getElem?_eq_some_iff.mp he
      have hn' : n < (sortPositions v.kdims).length := by simpa using hn
      simp only [List.getElem_map] at e
      set q := (sortPositions v.kdims)[n] with hqd
      have hq : q < v.kdims.length := mem_sortPositions.mp (List.getElem_mem hn')
      have hqP : q < P.length := by rw [lP, ← lv]; exact hq
      have hPi : P[q] = i := by
        have hlt : P[q] < x.kdims.length := List.mem_range.mp (hpp.mem_iff.mp (List.getElem_mem hqP))
        have e' : v.kdims.getD q [] = x.kdims[P[q]] := by
          rw [vk, List.getD_eq_getElem _ _ (by simpa using hqP), List.getElem_map, List.getD_eq_getElem _ _ hlt]
        rw [e'] at e
        exact (h.xdistinct.getElem_inj_iff).mp e
      have hh := vcell q hqP ((x.rowKeys labels)[i]'(by rw [lx]; exact hi))
        (by rw [hPi, List.getElem?_eq_getElem]) c hc o ho d hd
      rw [hPi] at hh
      rw [← hh]
      simp only [Arr.take]
      rw [List.getD_eq_getElem _ _ hn', range_getD' (by rw [w1, vv]; exact hc), range_getD' (by rw [w2, vo]; exact ho),
        range_getD' (by rw [w3, vd]; exact hd)]
    refine ⟨⟨?_, ?_, ?_, ?_⟩, hsp.trans (vk ▸ hperm), sortPositions_sorted _, vl, vv, vo, vd, vi, ?_, ?_⟩
    · simp [Arr.take]
    · simp [Arr.take, w1]
    · simp [Arr.take, w2]
    · simp [Arr.take, w3]
    · intro n i j hi hj he hs c hc o ho d hd
      have hk : (y.rowKeys labels)[j]? = some (x.rowKeys labels)[i] := by
        rw [← (key_iff h hi hj).mpr hs, List.getElem?_eq_getElem]
      rw [final n i hi he c hc o ho d hd, mateCell, group_single (ykeys_nodup h) hk]
      rfl
    · intro n i hi he hno c hc o ho d hd
      have hnil : groupIndices (y.rowKeys labels) (x.rowKeys labels)[i] = [] := by
        rw [List.eq_nil_iff_forall_not_mem]
        intro j hj
        have hj' : j < y.kdims.length := by rw [← ly]; exact groupIndices_lt hj
        have := key_of_mem hj
        exact hno j hj' ((key_iff h hi hj').mp (by rw [this, List.getElem?_eq_getElem]))
      rw [final n i hi he c hc o ho d hd, mateCell, hnil]
      rfl

theorem groupsIndex_true {x y : Tri K} {labels : List String} {keys : List (List String)}
    (h : Aggregate x y labels keys) : x.groupsIndex y = true := by
  have hx := h.xrows
  have hy := h.yrows
  have h1 : (y.keyLabels.all fun l => x.keyLabels.contains l) = true := by
    rw [List.all_eq_true]
    intro l hl
    simpa using h.sub l hl
  have h2 : (x.keyLabels.all fun l => y.keyLabels.contains l) = false := by
    rw [Bool.eq_false_iff]
    intro e
    rw [List.all_eq_true] at e
    have hs : x.keyLabels ⊆ y.keyLabels := fun l hl => by simpa using e l hl
    have := (h.xlabels.subperm hs).length_le
    have := h.fewer
    omega
  unfold groupsIndex
  have e1 : ¬ (x.kdims.length = 1 ∧ y.kdims.length > 1) := by omega
  have e2 : ¬ (x.kdims.length > 1 ∧ y.kdims.length = 1) := by omega
  have e3 : ¬ (x.kdims.length = 1 ∧ y.kdims.length = 1 ∧ x.keyLabels ≠ y.keyLabels) := by omega
  simp only [h1, h2, decide_eq_false e1, decide_eq_false e2, decide_eq_false e3]
  rfl

theorem arithAny_ok {f : Num K → Num K → Num K} {op : BinOp} (ho : Cellwise f (op.tri (K := K)))
    (hfin : ∀ t : Tri K, op.finish t = t)
    {x y : Tri K} {labels : List String} {keys : List (List String)} (h : Aggregate x y labels keys) :
    ∃ u, arithAny op labels keys x y = .ok u ∧ RowsCombined f x y u := by
  have hp := prepared h.wx h.wy h.odims h.ddims h.isVal h.vdims (x.isPattern && y.isPattern)
    (max x.vd y.vd) x.values.d0 x.values.d1
  have hprep : prepare x y = .ok (({ x with isPattern := x.isPattern && y.isPattern, vd := max x.vd y.vd } : Tri K),
      ({ y with isPattern := x.isPattern && y.isPattern } : Tri K)) := by
    unfold prepare
    have e1 : ¬ (x.ograin ≠ y.ograin ∨ (x.dgrain ≠ y.dgrain ∧ min x.values.d3 y.values.d3 > 1)) := by
      rintro (g | g)
      · exact g h.ograin
      · exact g.1 h.dgrain
    rw [if_neg e1]
    exact hp
  have h' : Aggregate ({ x with isPattern := x.isPattern && y.isPattern, vd := max x.vd y.vd } : Tri K)
      ({ y with isPattern := x.isPattern && y.isPattern } : Tri K) labels keys :=
    ⟨h.wx, h.wy, h.ograin, h.dgrain, h.isVal, h.vdims, h.odims, h.ddims, h.dev, h.xrows, h.yrows, h.xlabels,
      h.ylabels, h.sub, h.fewer, h.xdistinct, h.ydistinct, h.yfull, h.used, h.common, h.knodup, h.keys⟩
  obtain ⟨u, eu, hu⟩ := groupOp_ok ho h'
  refine ⟨u, ?_, ⟨hu.wf, hu.rows, hu.sorted, hu.keyLabels, hu.vdims, hu.odims, hu.ddims, hu.isVal, hu.cells, hu.missing⟩⟩
  unfold arithAny
  rw [hprep]
  simp only [bind, Except.bind]
  rw [if_pos (groupsIndex_true h'), eu]
  exact congrArg Except.ok (hfin u)

/-- **C78 (product), partial: the same columns, origins and developments, no group without rows in `x`.**  A
product with a triangle that has fewer index labels multiplies each row by the row with its key. -/
theorem C78_mul_partial {x y : Tri K} {labels : List String} {keys : List (List String)}
    (h : Aggregate x y labels keys) :
    ∃ u, arithAny .mul labels keys x y = .ok u ∧ RowsCombined (· * ·) x y u :=
  arithAny_ok (fun _ _ => mul_row) (fun _ => rfl) h

/-- **C78 (quotient), partial as above.** -/
theorem C78_div_partial {x y : Tri K} {labels : List String} {keys : List (List String)}
    (h : Aggregate x y labels keys) :
    ∃ u, arithAny .div labels keys x y = .ok u ∧ RowsCombined (· / ·) x y u :=
  arithAny_ok (fun _ _ => div_row) (fun _ => rfl) h

/-- **C78 (sets), partial as above.**  The result does not depend on the order in which Python lists the
common labels and the keys. -/
theorem C78_sets_partial {x y : Tri K} {labels labels' : List String} {keys keys' : List (List String)}
    (h : Aggregate x y labels keys) (h' : Aggregate x y labels' keys') :
    ∃ u u', arithAny .mul labels keys x y = .ok u ∧ arithAny .mul labels' keys' x y = .ok u' ∧
      u.kdims = u'.kdims ∧ u.keyLabels = u'.keyLabels ∧ u.vdims = u'.vdims ∧ u.odims = u'.odims ∧
      u.ddims = u'.ddims ∧
      ∀ n < x.kdims.length, ∀ c < x.vdims.length, ∀ o < x.odims.length, ∀ d < x.ddims.length,
        u.values.get n c o d = u'.values.get n c o d := by
  obtain ⟨u, e, hu⟩ := C78_mul_partial h
  obtain ⟨u', e', hu'⟩ := C78_mul_partial h'
  have hk : u.kdims = u'.kdims :=
    (hu.rows.trans hu'.rows.symm).eq_of_pairwise (fun _ _ _ _ => le_antisymm) hu.sorted hu'.sorted
  refine ⟨u, u', e, e', hk, hu.keyLabels.trans hu'.keyLabels.symm, hu.vdims.trans hu'.vdims.symm,
    hu.odims.trans hu'.odims.symm, hu.ddims.trans hu'.ddims.symm, ?_⟩
  intro n hn c hc o ho d hd
  have hn' : n < u.kdims.length := by rw [hu.rows.length_eq]; exact hn
  obtain ⟨i, hi⟩ := List.mem_iff_getElem?.mp (hu.rows.mem_iff.mp (List.getElem_mem hn'))
  have hil : i < x.kdims.length := (List.getElem?_eq_some_iff.mp hi).1
  have e1 : u.kdims[n]? = x.kdims[i]? := by rw [hi, List.getElem?_eq_getElem hn']
  by_cases hs : ∃ j < y.kdims.length, SharesKey x i y j
  · obtain ⟨j, hj, hs⟩ := hs
    rw [hu.cells n i j hil hj e1 hs c hc o ho d hd, hu'.cells n i j hil hj (hk ▸ e1) hs c hc o ho d hd]
  · have hno : ∀ j < y.kdims.length, ¬ SharesKey x i y j := fun j hj hs' => hs ⟨j, hj, hs'⟩
    rw [hu.missing n i hil e1 hno c hc o ho d hd, hu'.missing n i hil (hk ▸ e1) hno c hc o ho d hd]

/-! ## Examples -/

/-- Three rows with the labels company and line of business. -/
private def companies : Tri ℚ :=
  { Ex.tri3 (some true) Ex.cum3 with
    kdims := [["b", "auto"], ["a", "home"], ["a", "auto"]]
    keyLabels := ["company", "lob"]
    values := ⟨3, 1, 3, 3, fun i _ o d => Ex.cum3 o d * .fin (i + 1)⟩ }

/-- One row per line of business. -/
private def lines : Tri ℚ :=
  { Ex.tri3 (some true) Ex.cum3 with
    kdims := [["auto"], ["home"]]
    keyLabels := ["lob"]
    values := ⟨2, 1, 3, 3, fun i _ _ _ => if i = 0 then .fin 10 else .fin 1000⟩ }

private theorem example_shares : ∀ i < 3, ∀ j < 2, SharesKey companies i lines j ↔
    (companies.kdims.getD i []).getD 1 "" = (lines.kdims.getD j []).getD 0 "" := by
  intro i _ j _
  constructor
  · intro h; exact h 1 0 "lob" rfl rfl
  · intro h p q l hp hq
    obtain ⟨h1, h2⟩ := List.getElem?_eq_some_iff.mp hq
    have hq0 : q = 0 := by
      have : q < 1 := h1
      omega
    subst hq0
    have hl : l = "lob" := by rw [← h2]; rfl
    subst hl
    have hp2 : p < 2 := (List.getElem?_eq_some_iff.mp hp).1
    match p, hp2, hp with
    | 0, _, hp => exact absurd hp (by decide)
    | 1, _, _ => exact h

/-- The hypotheses of `C78_mul_partial` hold of this triangle, with the keys in either order. -/
theorem example_aggregate (keys : List (List String)) (h : keys.Perm [["auto"], ["home"]]) :
    Aggregate companies lines ["lob"] keys where
  wx := ⟨rfl, rfl, rfl, rfl⟩
  wy := ⟨rfl, rfl, rfl, rfl⟩
  ograin := rfl
  dgrain := rfl
  isVal := rfl
  vdims := rfl
  odims := rfl
  ddims := rfl
  dev := by decide
  xrows := by decide
  yrows := by decide
  xlabels := by decide
  ylabels := by decide
  sub := by decide
  fewer := by decide
  xdistinct := by decide
  ydistinct := by decide
  yfull := by decide
  used := by
    intro j hj
    have hj2 : j < 2 := hj
    match j, hj2 with
    | 0, _ => exact ⟨0, by decide, (example_shares 0 (by omega) 0 (by omega)).mpr rfl⟩
    | 1, _ => exact ⟨1, by decide, (example_shares 1 (by omega) 1 (by omega)).mpr rfl⟩
  common := fun _ => Iff.rfl
  knodup := h.nodup_iff.mpr (by decide)
  keys := by
    intro k
    rw [h.mem_iff]
    have e1 : companies.rowKeys ["lob"] = [["auto"], ["home"], ["auto"]] := by decide +kernel
    have e2 : lines.rowKeys ["lob"] = [["auto"], ["home"]] := by decide +kernel
    rw [e1, e2]
    simp only [List.mem_cons, List.not_mem_nil, or_false]
    tauto

/-- **C78 is false of the order of the rows**: unlike a product with a single row, a product with an
aggregate sorts the index. -/
theorem C78_order_false : ∃ x y u : Tri ℚ, Aggregate x y ["lob"] [["home"], ["auto"]] ∧
    arithAny .mul ["lob"] [["home"], ["auto"]] x y = .ok u ∧ u.kdims ≠ x.kdims ∧
    u.kdims = [["a", "auto"], ["a", "home"], ["b", "auto"]] ∧
    u.values.get 0 0 0 0 = .fin 3000 ∧ u.values.get 1 0 0 0 = .fin 200000 ∧
    u.values.get 2 0 0 0 = .fin 1000 := by
  obtain ⟨u, h1, h2, h3, h4, h5⟩ := ok_of (x := arithAny .mul ["lob"] [["home"], ["auto"]] companies lines)
    (fun u : Tri ℚ => u.kdims = [["a", "auto"], ["a", "home"], ["b", "auto"]] ∧
      u.values.get 0 0 0 0 = .fin 3000 ∧ u.values.get 1 0 0 0 = .fin 200000 ∧
      u.values.get 2 0 0 0 = .fin 1000) (by decide +kernel)
  refine ⟨companies, lines, u, example_aggregate _ (List.Perm.swap _ _ _), h1, ?_, h2, h3, h4, h5⟩
  rw [h2]
  decide

/-- A third line of business. -/
private def companies3 : Tri ℚ := { companies with kdims := [["b", "auto"], ["a", "home"], ["c", "marine"]] }

/-- **C78: the amounts of a group that is missing in `y` are not missing** in the product, but zero, and in
the quotient infinite: `_slice_or_nan`, which promises NaN, multiplies the first row of `y` by zero. -/
theorem C78_missing_false : ∃ x y u w : Tri ℚ, x.kdims[2]? = some ["c", "marine"] ∧
    (∀ j < y.kdims.length, ¬ SharesKey x 2 y j) ∧
    arithAny .mul ["lob"] [["marine"], ["auto"], ["home"]] x y = .ok u ∧
    u.kdims[2]? = some ["c", "marine"] ∧ u.values.get 2 0 0 0 = .fin 0 ∧
    arithAny .div ["lob"] [["marine"], ["auto"], ["home"]] x y = .ok w ∧
    w.kdims[2]? = some ["c", "marine"] ∧ w.values.get 2 0 0 0 = .pinf := by
  obtain ⟨u, h1, h2, h3⟩ := ok_of (x := arithAny .mul ["lob"] [["marine"], ["auto"], ["home"]] companies3 lines)
    (fun u : Tri ℚ => u.kdims[2]? = some ["c", "marine"] ∧ u.values.get 2 0 0 0 = .fin 0) (by decide +kernel)
  obtain ⟨w, h4, h5, h6⟩ := ok_of (x := arithAny .div ["lob"] [["marine"], ["auto"], ["home"]] companies3 lines)
    (fun u : Tri ℚ => u.kdims[2]? = some ["c", "marine"] ∧ u.values.get 2 0 0 0 = .pinf) (by decide +kernel)
  refine ⟨companies3, lines, u, w, rfl, ?_, h1, h2, h3, h4, h5, h6⟩
  intro j hj hs
  have hj2 : j < 2 := hj
  have := hs 1 0 "lob" rfl rfl
  match j, hj2, this with
  | 0, _, this => exact absurd this (by decide)
  | 1, _, this => exact absurd this (by decide)

end Tri
end CL
