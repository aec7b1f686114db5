import Verif.Lemmas.CaseFull
import Verif.Lemmas.ByLabel
import Verif.Lemmas.Concat
import Verif.Lemmas.Pattern

set_option linter.unusedSectionVars false

/-! # The development factors of `CaseOutstanding` -/

namespace CL
namespace Tri
variable {K : Type} [Field K] [LinearOrder K] [IsStrictOrderedRing K]

/-- `t` has the columns `cols`, otherwise the axes of `x`, and cells `f` by the name of the column. -/
structure Table (x t : Tri K) (cols : List String) (f : Nat → String → Nat → Nat → Num K) : Prop where
  wf : WF t
  kdims : t.kdims = x.kdims
  keyLabels : t.keyLabels = x.keyLabels
  vdims : t.vdims = cols
  odims : t.odims = x.odims
  ddims : t.ddims = x.ddims
  isVal : t.isVal = false
  ograin : t.ograin = x.ograin
  dgrain : t.dgrain = x.dgrain
  cell : ∀ i < x.kdims.length, ∀ c (h : c < cols.length), ∀ o < x.odims.length, ∀ d < x.ddims.length,
    t.values.get i c o d = f i cols[c] o d

variable {x t : Tri K} {cols l : List String} {f : Nat → String → Nat → Nat → Num K} {a : Int} {n D q : Nat}

/-- Columns by name. -/
theorem Table.getCols (h : Table x t cols f) (hl : l.Nodup) (hne : l ≠ []) (hsub : ∀ c ∈ l, c ∈ cols)
    (hx : x.ddims ≠ []) : ∃ r, t.getCols l = .ok r ∧ Table x r l f := by
  obtain ⟨w0, w1, w2, w3⟩ := h.wf
  have hmap : l.map (fun c => (t.vdims.idxOf c : Int)) = (l.map t.vdims.idxOf).map fun i : Nat => (i : Int) := by
    rw [List.map_map]; rfl
  have hlt : ∀ c ∈ l, cols.idxOf c < cols.length := fun c hcl => List.idxOf_lt_length_iff.2 (hsub c hcl)
  have hinj : ∀ c ∈ l, ∀ c' ∈ l, cols.idxOf c = cols.idxOf c' → c = c' := by
    intro c h1 c' h2 e
    have e1 : cols[cols.idxOf c]'(hlt c h1) = c := List.getElem_idxOf (hlt c h1)
    have e2 : cols[cols.idxOf c']'(hlt c' h2) = c' := List.getElem_idxOf (hlt c' h2)
    rw [← e1, ← e2]
    simp only [e]
  have hsel : Sel t.values.d1 (.lst (l.map fun c => (t.vdims.idxOf c : Int))) (l.map t.vdims.idxOf) := by
    rw [hmap]
    apply sel_positions
    · simpa using hne
    · intro y hy
      obtain ⟨c, hcl, rfl⟩ := List.mem_map.1 hy
      rw [w1, h.vdims]
      exact hlt c hcl
    · rw [h.vdims]
      exact List.Nodup.map_on hinj hl
  have ko : (List.range t.values.d2).map (t.odims.getD · 0) = t.odims := by
    rw [w2]; exact map_getD_range _ _
  have kd : (List.range t.values.d3).map (t.ddims.getD · 0) = t.ddims := by
    rw [w3]; exact map_getD_range _ _
  have kk : (List.range t.values.d0).map (t.kdims.getD · []) = t.kdims := by
    rw [w0]; exact map_getD_range _ _
  have kc : (l.map t.vdims.idxOf).map (t.vdims.getD · "") = l := by
    rw [List.map_map]
    conv_rhs => rw [← List.map_id l]
    refine List.map_congr_left fun c hcl => ?_
    have := hlt c hcl
    simp only [Function.comp, h.vdims, List.getD_eq_getElem?_getD, id]
    rw [List.getElem?_eq_getElem this]
    exact List.getElem_idxOf this
  have hp : ∃ r, t.getCols l = .ok r ∧ ∃ v, r = t.picked (List.range t.values.d0) (l.map t.vdims.idxOf)
      (List.range t.values.d2) (List.range t.values.d3) v := by
    unfold Tri.getCols
    rw [if_pos (by
      simp only [List.all_eq_true, List.contains_iff_mem]
      intro c hcl
      rw [h.vdims]; exact hsub c hcl)]
    rw [iloc_of_sel (selS_all _).sel hsel (selS_all _) (selS_all _), pick_eq t _ _ _ _ (Or.inr _)]
    · exact ⟨_, rfl, _, rfl⟩
    · intro e
      have := congrArg List.length e
      rw [List.length_range, w3, h.ddims] at this
      exact hx (List.length_eq_zero_iff.1 this)
  obtain ⟨r, h1, v, rfl⟩ := hp
  refine ⟨_, h1, ⟨?_, kk.trans h.kdims, h.keyLabels, kc, ko.trans h.odims, kd.trans h.ddims, h.isVal, h.ograin, h.dgrain, ?_⟩⟩
  · refine ⟨?_, ?_, ?_, ?_⟩ <;> simp [picked, Arr.take]
  · intro i hi c hcl o ho d hd
    show t.values.get _ _ _ _ = _
    have e1 : t.values.d0 = x.kdims.length := by rw [w0, h.kdims]
    have e2 : t.values.d2 = x.odims.length := by rw [w2, h.odims]
    have e3 : t.values.d3 = x.ddims.length := by rw [w3, h.ddims]
    have hmem : l[c] ∈ l := List.getElem_mem hcl
    have e4 : (l.map t.vdims.idxOf).getD c 0 = cols.idxOf l[c] := by
      simp [List.getD_eq_getElem?_getD, hcl, h.vdims]
    have hi' : i < t.values.d0 := by rw [e1]; exact hi
    have ho' : o < t.values.d2 := by rw [e2]; exact ho
    have hd' : d < t.values.d3 := by rw [e3]; exact hd
    rw [e4]
    have e5 : (List.range t.values.d0).getD i 0 = i := by simp [List.getD_eq_getElem?_getD, hi']
    have e6 : (List.range t.values.d2).getD o 0 = o := by simp [List.getD_eq_getElem?_getD, ho']
    have e7 : (List.range t.values.d3).getD d 0 = d := by simp [List.getD_eq_getElem?_getD, hd']
    rw [e5, e6, e7, h.cell i hi _ (hlt _ hmem) o ho d hd, List.getElem_idxOf]

end Tri

namespace CaseOut
open Tri
variable {K : Type} [Field K] [LinearOrder K] [IsStrictOrderedRing K]
variable {x c f s : Tri K} {a : Int} {n D q : Nat} {C : Nat → Nat → Nat → K} {fl fg : Flags} {φ γ : Nat → Nat → K}
  {R P I : Nat → Nat → Nat → K}

/-- The paid and incurred amounts at every age. -/
def full (x : Tri K) (p r : String) (φ γ : Nat → Nat → K) (D q : Nat) (i : Nat) (col : String) (o d : Nat) : K :=
  if col = p then fullPaid (amount x p) (reserveAt (reserve x p r) φ D q) γ D q i o d
  else fullIncurred (amount x p) (amount x r) (reserveAt (reserve x p r) φ D q) γ D q i o d

theorem complete_ok (hx : Standard x a n D q) (hq : Dev.valOffset x.dgrain x.ograin = some q)
    (hu : lastDate x a n D q < 12 * 2261) (hn3 : 3 ≤ n) {p r : String} (hp : p ∈ x.vdims) (hr : r ∈ x.vdims)
    (hpr : p ≠ r) (hnd : x.vdims.Nodup)
    {cf pf : Tri K} (nz : ∀ i < x.kdims.length, ∀ o < n, ∀ d < D, q * o + d < D → reserve x p r i o d ≠ 0)
    (hcf : Factors x cf D fl φ) (hfl : fl.1 ≠ some true) (hφ : ∀ i < x.kdims.length, ∀ d < D - 1, φ i d ≠ 0)
    (hpf : Factors x pf D fg γ)
    (hT : ∀ i < x.kdims.length, total (reserve x p r) n D q i ≠ 0) :
    ∃ d, complete p r x cf pf = .ok d ∧ Table x d (x.vdims.filter fun n => n == p || n == r)
      fun i col o d => (Num.fin (full x p r φ γ D q i col o d)).numToNan := by
  have hg := hx.toGrid
  have hD := hg.two_ages
  obtain ⟨p0, r0, c0, c, future, pd0, pd, c1, p1, i0, i1, h1, h2, h3, h4, h5, h6, h7, h8, h9, h10, h11, bp, bi⟩ :=
    columns_ok hx hq hu hn3 hp hr nz hcf hfl hφ hpf hT
  set u : Tri K := { pd.incrToCum with vdims := [p] } with hu'
  set w : Tri K := { i1 with vdims := [r] } with hw
  obtain ⟨e0, e1, e2, e3⟩ := bp.dims
  obtain ⟨k0, k1, k2, k3⟩ := bi.dims
  have hcc := concat_columns (a := u) (b := w) (by show i1.kdims = pd.incrToCum.kdims; rw [bi.kdims, bp.kdims])
    (by show i1.odims = pd.incrToCum.odims; rw [bi.odims, bp.odims])
    (by show i1.ddims = pd.incrToCum.ddims; rw [bi.ddims, bp.ddims])
    (by show i1.isVal = pd.incrToCum.isVal; rw [bi.isVal, bp.isVal])
    (by show pd.incrToCum.values.d0 = i1.values.d0; rw [e0, k0])
    (by show pd.incrToCum.values.d2 = i1.values.d2; rw [e2, k2])
    (by show pd.incrToCum.values.d3 = i1.values.d3; rw [e3, k3])
    (by show [p, r].Nodup; simp [hpr])
  obtain ⟨T, hT'⟩ : ∃ T : Tri K, concat .columns [u, w] = .ok T ∧ Table x T [p, r] fun i col o d =>
      (Num.fin (full x p r φ γ D q i col o d)).numToNan := by
    refine ⟨_, hcc, ⟨⟨?_, ?_, ?_, ?_⟩, bp.kdims, bp.keyLabels, rfl, bp.odims, bp.ddims, bp.isVal, bp.ograin, bp.dgrain, ?_⟩⟩
    · show pd.incrToCum.values.d0 = pd.incrToCum.kdims.length
      rw [e0, bp.kdims]
    · show pd.incrToCum.values.d1 + i1.values.d1 = 2
      rw [e1, k1]
    · show pd.incrToCum.values.d2 = pd.incrToCum.odims.length
      rw [e2, bp.odims]
    · show pd.incrToCum.values.d3 = pd.incrToCum.ddims.length
      rw [e3, bp.ddims]
    · intro i hi col hcol o ho d hd
      show (if col < pd.incrToCum.values.d1 then pd.incrToCum.values.get i col o d
        else i1.values.get i (col - pd.incrToCum.values.d1) o d) = _
      rw [e1]
      have hcol : col < 2 := hcol
      unfold full
      match col, hcol with
      | 0, _ => rw [if_pos (by omega), bp.cell i hi o ho d hd, if_pos (by rfl)]
      | 1, _ => rw [if_neg (by omega), bi.cell i hi o ho d hd, if_neg (by exact fun h => hpr h.symm)]
  obtain ⟨hT1, hT2⟩ := hT'
  obtain ⟨d, hd1, hd2⟩ := hT2.getCols (l := x.vdims.filter fun n => n == p || n == r)
    (hnd.filter _)
    (List.ne_nil_of_mem (a := p) (List.mem_filter.2 ⟨hp, by simp⟩))
    (by
      intro c' hc'
      have := (List.mem_filter.1 hc').2
      simpa using this)
    (by intro e; have := hg.lenD; rw [e] at this; simp at this; omega)
  refine ⟨d, ?_, hd2⟩
  unfold complete
  simp only [h1, bind, Except.bind]
  rw [h2]; simp only
  rw [h3]; simp only
  rw [h4]; simp only
  rw [h5]; simp only
  rw [h6]; simp only
  rw [h7]; simp only
  rw [h8]; simp only
  rw [h9]; simp only
  rw [h10]; simp only
  rw [h11]; simp only
  rw [hT1]; simp only
  exact hd1

/-- The factors from the completed triangles. -/
theorem setLdf_ok (hx : Standard x a n D q) (hq : Dev.valOffset x.dgrain x.ograin = some q)
    (hu : lastDate x a n D q < 12 * 2261) (hn3 : 3 ≤ n) {p r : String} (hp : p ∈ x.vdims) (hr : r ∈ x.vdims)
    (hpr : p ≠ r) (hnd : x.vdims.Nodup)
    {cf pf : Tri K} (nz : ∀ i < x.kdims.length, ∀ o < n, ∀ d < D, q * o + d < D → reserve x p r i o d ≠ 0)
    (hcf : Factors x cf D fl φ) (hfl : fl.1 ≠ some true) (hφ : ∀ i < x.kdims.length, ∀ d < D - 1, φ i d ≠ 0)
    (hpf : Factors x pf D fg γ)
    (hT : ∀ i < x.kdims.length, total (reserve x p r) n D q i ≠ 0)
    (hF : ∀ i < x.kdims.length, ∀ col, col = p ∨ col = r → ∀ o < n, ∀ d < D, full x p r φ γ D q i col o d ≠ 0) :
    ∃ g, setLdf p r x cf pf = .ok g ∧ WF g ∧ g.kdims = x.kdims ∧ g.keyLabels = x.keyLabels ∧
      g.vdims = (x.vdims.filter fun n => n == p || n == r) ∧ g.odims = x.odims ∧ g.ddims = x.ddims.dropLast ∧
      g.isVal = false ∧ g.isPattern = true ∧ g.isCum = some false ∧ g.vd = ultVal ∧
      ∀ i < x.kdims.length, ∀ c (h : c < g.vdims.length), ∀ o < n, ∀ d < D - 1, g.values.get i c o d =
        .fin (full x p r φ γ D q i g.vdims[c] o (d + 1) / full x p r φ γ D q i g.vdims[c] o d) := by
  have hg := hx.toGrid
  have hq1 := hg.period
  have hrec := hg.recent
  have hqn : q * 2 ≤ q * (n - 1) := Nat.mul_le_mul_left _ (by omega)
  obtain ⟨t, ht, bt⟩ := complete_ok hx hq hu hn3 hp hr hpr hnd nz hcf hfl hφ hpf hT
  obtain ⟨cols, hcols⟩ : ∃ cols, cols = x.vdims.filter fun n => n == p || n == r := ⟨_, rfl⟩
  rw [← hcols] at bt ⊢
  have hcol : ∀ c (h : c < cols.length), cols[c] = p ∨ cols[c] = r := by
    intro c h
    have hm : ∀ y ∈ cols, y = p ∨ y = r := by
      intro y hy
      rw [hcols] at hy
      simpa using (List.mem_filter.1 hy).2
    exact hm _ (List.getElem_mem h)
  have tcell : ∀ i < x.kdims.length, ∀ c (h : c < cols.length), ∀ o < n, ∀ d < D, t.values.get i c o d =
      .fin (full x p r φ γ D q i cols[c] o d) := by
    intro i hi c h o ho d hd
    rw [bt.cell i hi c h o (by rw [hg.lenO]; exact ho) d (by rw [hg.lenD]; exact hd)]
    exact Num.numToNan_fin_of_ne (hF i hi _ (hcol c h) o ho d hd)
  obtain ⟨t0, t1, t2, t3⟩ := bt.wf
  rw [bt.kdims] at t0
  rw [bt.vdims] at t1
  rw [bt.odims, hg.lenO] at t2
  rw [bt.ddims, hg.lenD] at t3
  obtain ⟨u, hu1, bu⟩ := ilocD_cut (t := t) bt.wf (k := .int (-1)) (pd := [D - 1])
    (by have := selS_last (n := t.values.d3) (by omega)
        rw [t3] at this ⊢
        exact this) (by simp)
  have ud : u.ddims.length = 1 := by rw [bu.ddims]; rfl
  obtain ⟨u0, u1, u2, u3⟩ := bu.wf
  have hcp : Compat u t := by
    refine ⟨bu.wf, bt.wf, bu.ograin, Or.inr ?_, bu.keyLabels, Or.inl bu.kdims, Or.inl bu.vdims, Or.inl bu.odims,
      Or.inr (Or.inr ⟨ud, ?_⟩), fun h => by omega⟩
    · rw [u3, ud]; omega
    · rw [bt.ddims, hg.lenD]; omega
  obtain ⟨R', hR'⟩ : ∃ R' : Tri K, R' = combined (· / ·) u t := ⟨_, rfl⟩
  have ld : longer u.ddims t.ddims = t.ddims := by
    unfold longer
    rw [if_pos ⟨ud, by rw [bt.ddims, hg.lenD]; omega⟩]
  have lk : longer u.kdims t.kdims = x.kdims := by
    rw [bu.kdims, longer_self, bt.kdims]
  have lv : longer u.vdims t.vdims = cols := by
    rw [bu.vdims, longer_self, bt.vdims]
  have lo : longer u.odims t.odims = x.odims := by
    rw [bu.odims, longer_self, bt.odims]
  have rcell : ∀ i < x.kdims.length, ∀ c (h : c < cols.length), ∀ o < n, ∀ d < D, R'.values.get i c o d =
      .fin (full x p r φ γ D q i cols[c] o (D - 1) / full x p r φ γ D q i cols[c] o d) := by
    intro i hi c h o ho d hd
    rw [hR']
    show u.values.get _ _ _ _ / t.values.get _ _ _ _ = _
    have e1 : Arr.bix 1 D d = 0 := by unfold Arr.bix; split_ifs <;> omega
    rw [lk, lv, lo, ld, u0, u1, u2, u3, bu.kdims, bu.vdims, bu.odims, ud, bt.kdims, bt.vdims, bt.odims, bt.ddims, t0, t1, t2,
      t3, hg.lenO, hg.lenD, Arr.bix_self, Arr.bix_self, Arr.bix_self, Arr.bix_self, e1,
      bu.cell i (by rw [bt.kdims]; exact hi) c (by rw [bt.vdims]; exact h) o (by rw [bt.odims, hg.lenO]; exact ho) 0
      (by simp)]
    simp only [List.getElem_cons_zero]
    rw [tcell i hi c h o ho (D - 1) (by omega), tcell i hi c h o ho d hd,
      Num.fin_div_fin_of_ne _ (hF i hi _ (hcol c h) o ho d hd)]
  have rw' : WF R' := by rw [hR']; exact wf_combined _ _ _
  have r3 : R'.values.d3 = D := by
    rw [hR']
    show (longer u.ddims t.ddims).length = D
    rw [ld, bt.ddims, hg.lenD]
  obtain ⟨v, hv1, bv⟩ := ilocD_cut (t := R') rw' (k := .upto (-1)) (pd := List.range (D - 1))
    (by have := selS_upto_neg R'.values.d3 1 (by omega) (by omega)
        rw [r3] at this ⊢
        exact this)
    (List.ne_nil_of_mem (List.mem_range.2 (show 0 < D - 1 by omega)))
  obtain ⟨lr, hlr, elr⟩ := hx.linkRatio
  obtain ⟨v0, v1, v2, v3⟩ := bv.wf
  have Rk : R'.kdims = x.kdims := by rw [hR']; exact lk
  have Rv : R'.vdims = cols := by rw [hR']; exact lv
  have Ro : R'.odims = x.odims := by rw [hR']; exact lo
  have Rd : R'.ddims = x.ddims := by rw [hR']; exact ld.trans bt.ddims
  rw [bv.kdims, Rk] at v0
  rw [bv.vdims, Rv] at v1
  rw [bv.odims, Ro, hg.lenO] at v2
  rw [bv.ddims, List.length_map, List.length_range] at v3
  have Ri : v.isVal = false := by
    rw [bv.isVal, hR']
    show (if _ then t.isVal else u.isVal) = false
    rw [bu.isVal, bt.isVal, ite_self]
  have hdl : x.ddims.dropLast = (List.range (D - 1)).map fun d : Nat => (((d + 1) * x.dgrain.months : Nat) : Int) := by
    rw [hg.ddims, ← List.map_dropLast]
    congr 1
    apply List.ext_getElem
    · simp
    · intro j h1 h2; simp
  obtain ⟨G, hG⟩ : ∃ G : Tri K, G = { v with
    vd := ultVal
    ddims := lr.ddims
    isPattern := true
    isCum := some true } := ⟨_, rfl⟩
  have Gd : G.ddims = x.ddims.dropLast := by rw [hG]; exact elr
  have Go : G.odims = x.odims := by rw [hG]; exact bv.odims.trans Ro
  have Gi : G.isVal = false := by rw [hG]; exact Ri
  have Gvd : G.vd = ultVal := by rw [hG]
  have G0 : G.values.d0 = x.kdims.length := by rw [hG]; exact v0
  have G1 : G.values.d1 = cols.length := by rw [hG]; exact v1
  have G2 : G.values.d2 = n := by rw [hG]; exact v2
  have G3 : G.values.d3 = D - 1 := by rw [hG]; exact v3
  have Gk : G.kdims = x.kdims := by rw [hG]; exact bv.kdims.trans Rk
  have Gv : G.vdims = cols := by rw [hG]; exact bv.vdims.trans Rv
  have Gl : G.keyLabels = x.keyLabels := by
    rw [hG]
    show v.keyLabels = _
    rw [bv.keyLabels, hR']
    exact bu.keyLabels.trans bt.keyLabels
  have Gw : WF G := by
    refine ⟨by rw [G0, Gk], by rw [G1, Gv], by rw [G2, Go, hg.lenO], by rw [G3, Gd, List.length_dropLast, hg.lenD]⟩
  have gcell : ∀ i < x.kdims.length, ∀ c (h : c < cols.length), ∀ o < n, ∀ d < D - 1, G.values.get i c o d =
      .fin (full x p r φ γ D q i cols[c] o (D - 1) / full x p r φ γ D q i cols[c] o d) := by
    intro i hi c h o ho d hd
    rw [hG]
    show v.values.get i c o d = _
    rw [bv.cell i (by rw [Rk]; exact hi) c (by rw [Rv]; exact h) o (by rw [Ro, hg.lenO]; exact ho) d
      (by rw [List.length_range]; exact hd), List.getElem_range]
    exact rcell i hi c h o ho d (by omega)
  have mem_dl : ∀ y ∈ x.ddims.dropLast, y ∈ x.ddims := fun y hy => List.dropLast_subset _ hy
  have Gord : Ordered G := by
    intro _
    rw [Go, Gd, Gvd]
    have ho := hg.ordered hg.isVal
    refine ⟨fun o hoo => le_trans (ho.1 o hoo) hg.early, fun d hd => ho.2.1 d (mem_dl d hd), ?_⟩
    intro h
    exact hg.not_ult (mem_dl _ (List.dropLast_subset _ h))
  have Gnt : ∀ o < n, ∀ d < D - 1, G.nanTri o d = 1 := by
    intro o ho d hd
    unfold Tri.nanTri
    split_ifs with h1 h2
    · rfl
    · exfalso
      have hl := hg.valuation_last (o := o) (d := d) ho (by omega)
      have hnot : ¬ (G.ddims.getLast? = some 9999 ∧ d + 1 = G.ddims.length) := by
        rintro ⟨e, -⟩
        rw [Gd] at e
        exact hg.not_ult (mem_dl _ (List.mem_of_getLast? e))
      have hnot' : ¬ (x.ddims.getLast? = some 9999 ∧ d + 1 = x.ddims.length) := by
        rintro ⟨e, -⟩
        exact hg.not_ult (List.mem_of_getLast? e)
      have hdd : G.ddims.getD d 0 = x.ddims.getD d 0 := by
        have hlt : d < x.ddims.length := by rw [hg.lenD]; omega
        rw [Gd]
        simp only [List.getD_eq_getElem?_getD]
        rw [List.getElem?_eq_getElem (by rw [List.length_dropLast, hg.lenD]; exact hd), List.getElem_dropLast,
          List.getElem?_eq_getElem hlt]
      have ho1 := hg.origin_le ho
      have he := hg.early
      unfold Tri.valuation valuationOf at h2 hl
      rw [Gi, Gvd] at h2
      rw [hg.isVal] at hl
      simp only [Bool.false_eq_true, if_false] at h2 hl
      rw [if_neg hnot, Go, hdd, hg.getO ho, min_eq_left (le_trans ho1 he)] at h2
      rw [if_neg hnot', hg.getO ho, min_eq_left ho1] at hl
      have : lastDate x a n D q ≤ ultVal := by unfold ultVal; omega
      omega
    · rfl
  obtain ⟨g, g1, g2, g3, g4⟩ := cumToIncr_pattern_cells Gw Gord (fun _ => by rw [Gvd])
    (by rw [hG]; simp) (by rw [hG]) (by rw [G3]; omega)
    (by rw [Gd]; exact hg.nodup.sublist (List.dropLast_sublist _))
  have gv : g.vdims = cols := by rw [g2]; exact Gv
  refine ⟨g, ?_, ?_, ?_, ?_, gv, ?_, ?_, ?_, ?_, ?_, ?_, ?_⟩
  · unfold setLdf
    simp only [ht, bind, Except.bind]
    rw [hu1]; simp only
    rw [div_compat hcp]; simp only
    rw [← hR', hv1]; simp only
    rw [hlr]; simp only
    rw [← hG]
    exact g1
  · obtain ⟨s0, s1, s2, s3⟩ := g3
    refine ⟨?_, ?_, ?_, ?_⟩
    · rw [s0, Gw.1, g2]
    · rw [s1, Gw.2.1, g2]
    · rw [s2, Gw.2.2.1, g2]
    · rw [s3, Gw.2.2.2, g2]
  · rw [g2]; exact Gk
  · rw [g2]; exact Gl
  · rw [g2]; exact Go
  · rw [g2]; exact Gd
  · rw [g2]; exact Gi
  · rw [g2, hG]
  · rw [g2]
  · rw [g2]; exact Gvd
  · intro i hi c h o ho d hd
    have h' : c < cols.length := by rw [← gv]; exact h
    have e : g.vdims[c] = cols[c] := by simp only [gv]
    rw [e]
    have nzF : ∀ d < D, full x p r φ γ D q i cols[c] o d ≠ 0 := fun d hd => hF i hi _ (hcol c h') o ho d hd
    have hfac : ∀ d < D - 1, Tri.factor (G.values.get i c o d) =
        .fin (full x p r φ γ D q i cols[c] o (D - 1) / full x p r φ γ D q i cols[c] o d) := by
      intro d hd
      rw [gcell i hi c h' o ho d hd, Tri.factor_eq (by simp)]
      have : full x p r φ γ D q i cols[c] o (D - 1) / full x p r φ γ D q i cols[c] o d ≠ 0 :=
        div_ne_zero (nzF _ (by omega)) (nzF _ (by omega))
      simp [this]
    rw [g4 i c o d ⟨by rw [G0]; exact hi, by rw [G1]; exact h', by rw [G2]; exact ho, by rw [G3]; exact hd⟩,
      Gnt o ho d hd, mul_one, G3]
    have a1 := nzF (D - 1) (by omega)
    have a2 := nzF d (by omega)
    split_ifs with hlt
    · have a3 := nzF (d + 1) (by omega)
      rw [hfac d hd, hfac (d + 1) hlt, Num.fin_div_fin_of_ne _ (div_ne_zero a1 a3)]
      congr 1
      field_simp
    · rw [hfac d hd, show d + 1 = D - 1 by omega]

end CaseOut
end CL
