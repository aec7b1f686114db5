import Verif.Lemmas.Weights
import Verif.Lemmas.Contig
import Verif.Lemmas.Along
import Verif.Lemmas.Grain
import Verif.Spec.Along
import Verif.Model.Reshape
import Verif.Model.Grain

set_option linter.unusedSectionVars false

/-! # Shapes of the results of operations -/

namespace CL

theorem bind_ok {α β : Type} {x : Except Err α} {f : α → Except Err β} {b : β}
    (h : (x >>= f) = .ok b) : ∃ a, x = .ok a ∧ f a = .ok b := by
  cases x with
  | error e => simp [bind, Except.bind] at h
  | ok a => exact ⟨a, rfl, h⟩

theorem foldl_same {l : List Int} {x : Int} (h : ∀ y ∈ l, y = x) :
    l.foldl max x = x ∧ l.foldl min x = x := by
  induction l with
  | nil => exact ⟨rfl, rfl⟩
  | cons a l ih =>
    have ha := h a (by simp)
    simp only [List.foldl_cons, ha, max_self, min_self]
    exact ih fun y hy => h y (by simp [hy])

theorem diffs_const {l : List Int} {a : Int} (h : ∀ x ∈ l, x = a) : ∀ d ∈ diffs l, d = 0 := by
  match l with
  | [] => simp [diffs]
  | [b] => simp [diffs]
  | b :: c :: l =>
    intro d hd
    simp only [diffs, List.mem_cons] at hd
    rcases hd with rfl | hd
    · rw [h b (by simp), h c (by simp)]; ring
    · exact diffs_const (fun x hx => h x (by simp at hx ⊢; tauto)) d hd

/-- Whenever a list of positions inside the axis can be used, it selects as many rows as it is long. -/
theorem contig_length {n : Nat} {l : List Int} {k : Key} {ps : List Nat}
    (hin : ∀ x ∈ l, 0 ≤ x ∧ x < n) (h1 : contigSlice (.lst l) = .ok k) (h2 : k.positions n = .ok ps) :
    ps.length = l.length ∧ l ≠ [] := by
  have hne : l ≠ [] := by rintro rfl; simp [contigSlice] at h1
  refine ⟨?_, hne⟩
  by_cases hz : 2 ≤ l.length ∧ ∀ x ∈ l, ∀ y ∈ l, x = y
  · exfalso
    match l, hz with
    | a :: b :: l, hz =>
      have hd : ∀ d ∈ diffs (a :: b :: l), d = 0 := diffs_const fun x hx => hz.2 x hx a (by simp)
      have hab : b - a = 0 := by rw [hz.2 b (by simp) a (by simp)]; ring
      have hm := foldl_same (l := diffs (a :: b :: l)) (x := 0) hd
      unfold contigSlice at h1
      simp only [hab, hm.1, hm.2, if_true, zero_ne_one, lt_irrefl, if_false] at h1
      injection h1 with h1
      subst h1
      simp [Key.positions, PySlice.positions, PySlice.indices] at h2
  · obtain ⟨k', e1, e2⟩ := contig_positions hne hin hz
    rw [h1] at e1
    injection e1 with e1
    subst e1
    rw [h2] at e2
    injection e2 with e2
    rw [e2, List.length_map]

namespace Arr
variable {K : Type} [Field K] [LinearOrder K] [IsStrictOrderedRing K]

theorem zip_dims {f : Num K → Num K → Num K} {a b r : Arr K} (h : zip f a b = .ok r) :
    bdim a.d0 b.d0 = some r.d0 ∧ bdim a.d1 b.d1 = some r.d1 ∧ bdim a.d2 b.d2 = some r.d2 ∧
      bdim a.d3 b.d3 = some r.d3 := by
  unfold zip at h
  split at h
  · rename_i e0 e1 e2 e3
    injection h with h
    subst h
    exact ⟨e0, e1, e2, e3⟩
  · cases h

theorem bdim_one (m : Nat) : bdim m 1 = some m := by
  unfold bdim
  split_ifs with h1 h2 <;> simp_all

end Arr

namespace Tri
variable {K : Type} [Field K] [LinearOrder K] [IsStrictOrderedRing K]

theorem pick_dims {t u : Tri K} {pi pc po pd : List Nat} (h : t.pick pi pc po pd = .ok u) :
    WF u ∧ u.values.d0 = pi.length ∧ u.values.d1 = pc.length ∧ u.values.d2 = po.length ∧
      u.values.d3 = pd.length := by
  unfold pick at h
  simp only at h
  split at h
  · cases h
  split at h
  · cases h
    refine ⟨⟨?_, ?_, ?_, ?_⟩, ?_, ?_, ?_, ?_⟩ <;> simp [Arr.take]
  · cases h
    refine ⟨⟨?_, ?_, ?_, ?_⟩, ?_, ?_, ?_, ?_⟩ <;> simp [Arr.take]

/-- A key selects positions `ps`. -/
def Picks (n : Nat) (k : Key) (ps : List Nat) : Prop :=
  ∃ k' k'', normalizeKey n k = .ok k' ∧ contigSlice k' = .ok k'' ∧ k''.positions n = .ok ps


theorem iloc_picks {t u : Tri K} {ki kc ko kd : Key} (h : t.iloc ki kc ko kd = .ok u) :
    WF u ∧ ∃ pi pc po pd, Picks t.values.d0 ki pi ∧ Picks t.values.d1 kc pc ∧ Picks t.values.d2 ko po ∧
      Picks t.values.d3 kd pd ∧ u.values.d0 = pi.length ∧ u.values.d1 = pc.length ∧
      u.values.d2 = po.length ∧ u.values.d3 = pd.length := by
  unfold iloc at h
  obtain ⟨k0, n0, h⟩ := bind_ok h
  obtain ⟨k1, n1, h⟩ := bind_ok h
  obtain ⟨k2, n2, h⟩ := bind_ok h
  obtain ⟨k3, n3, h⟩ := bind_ok h
  unfold getIdx at h
  obtain ⟨c0, m0, h⟩ := bind_ok h
  obtain ⟨c1, m1, h⟩ := bind_ok h
  obtain ⟨c2, m2, h⟩ := bind_ok h
  obtain ⟨c3, m3, h⟩ := bind_ok h
  split at h
  · cases h
  obtain ⟨p0, q0, h⟩ := bind_ok h
  obtain ⟨p1, q1, h⟩ := bind_ok h
  obtain ⟨p2, q2, h⟩ := bind_ok h
  obtain ⟨p3, q3, h⟩ := bind_ok h
  obtain ⟨w, d0, d1, d2, d3⟩ := pick_dims h
  exact ⟨w, p0, p1, p2, p3, ⟨_, _, n0, m0, q0⟩, ⟨_, _, n1, m1, q1⟩, ⟨_, _, n2, m2, q2⟩,
    ⟨_, _, n3, m3, q3⟩, d0, d1, d2, d3⟩

theorem Picks.all {n : Nat} {ps : List Nat} (h : Picks n (.slc .all) ps) : ps.length = n := by
  obtain ⟨k', k'', h1, h2, h3⟩ := h
  obtain ⟨k, s, e1, e2, e3⟩ := selS_all n
  rw [h1] at e1; injection e1 with e1; subst e1
  rw [h2] at e2; injection e2 with e2; subst e2
  have : PySlice.positions s n = .ok ps := h3
  rw [this] at e3; injection e3 with e3
  rw [e3, List.length_range]

theorem Picks.lst {n : Nat} {l : List Int} {ps : List Nat} (h : Picks n (.lst l) ps)
    (hin : ∀ x ∈ l, 0 ≤ x ∧ x < n) : ps.length = l.length ∧ l ≠ [] := by
  obtain ⟨k', k'', h1, h2, h3⟩ := h
  have : k' = .lst l := by
    unfold normalizeKey sparseNormalize at h1
    have ha : (l.any fun i => decide (i ≥ n ∨ i < -(n : Int))) = false := by
      rw [List.any_eq_false]
      intro x hx
      have := hin x hx
      simp only [decide_eq_true_eq]
      omega
    have hm : (l.map fun i => if i < 0 then i + (n : Int) else i) = l := by
      conv_rhs => rw [← List.map_id l]
      apply List.map_congr_left
      intro x hx
      have := hin x hx
      rw [if_neg (by omega)]; rfl
    simp only [ha, Bool.false_eq_true, if_false, hm] at h1
    injection h1 with h1
    exact h1.symm
  subst this
  exact contig_length hin h2 h3

/-- Combining with a one-cell array keeps the shape. -/
theorem zipArr_scalar_wf {t u : Tri K} {f : Num K → Num K → Num K} {x : Num K} (wf : WF t)
    (h : t.zipArr f (Arr.scalar x) = .ok u) : WF u ∧ u.kdims = t.kdims ∧ u.vdims = t.vdims ∧
      u.odims = t.odims ∧ u.ddims = t.ddims := by
  unfold zipArr at h
  obtain ⟨v, hv, h⟩ := bind_ok h
  injection h with h
  subst h
  obtain ⟨e0, e1, e2, e3⟩ := Arr.zip_dims hv
  obtain ⟨w0, w1, w2, w3⟩ := wf
  simp only [Arr.scalar, Arr.const, Arr.bdim_one, Option.some.injEq] at e0 e1 e2 e3
  exact ⟨⟨by rw [← w0, e0], by rw [← w1, e1], by rw [← w2, e2], by rw [← w3, e3]⟩, rfl, rfl, rfl, rfl⟩

theorem addArr_scalar_wf {t u : Tri K} {x : Num K} (wf : WF t)
    (h : t.addArr (Arr.scalar x) = .ok u) : WF u ∧ u.kdims = t.kdims ∧ u.vdims = t.vdims ∧
      u.odims = t.odims ∧ u.ddims = t.ddims := by
  unfold addArr at h
  obtain ⟨v, hv, h⟩ := bind_ok h
  injection h with h
  subst h
  exact ⟨(zipArr_scalar_wf wf hv).1, (zipArr_scalar_wf wf hv).2⟩

/-- The array `a` can be combined with `o`, and the result has the labels of `o`. -/
structure Ready (o : Tri K) (a : Arr K) : Prop where
  d0 : ∀ k, Arr.bdim o.values.d0 a.d0 = some k → k = o.kdims.length
  d1 : ∀ k, Arr.bdim o.values.d1 a.d1 = some k → k = o.vdims.length
  d2 : ∀ k, Arr.bdim o.values.d2 a.d2 = some k → k = o.odims.length
  d3 : ∀ k, Arr.bdim o.values.d3 a.d3 = some k → k = o.ddims.length

theorem Ready.zipArr {o u : Tri K} {a : Arr K} {f : Num K → Num K → Num K} (hr : Ready o a)
    (h : o.zipArr f a = .ok u) : WF u := by
  unfold Tri.zipArr at h
  obtain ⟨v, hv, h⟩ := bind_ok h
  injection h with h
  subst h
  obtain ⟨e0, e1, e2, e3⟩ := Arr.zip_dims hv
  exact ⟨hr.d0 _ e0, hr.d1 _ e1, hr.d2 _ e2, hr.d3 _ e3⟩

theorem appendScalarCol_wf {t u : Tri K} {key : String} {x : Num K} (wf : WF t)
    (h : t.appendScalarCol key x = .ok u) : WF u ∧ u.kdims = t.kdims ∧ u.odims = t.odims ∧
      u.ddims = t.ddims ∧ 1 ≤ t.values.d1 := by
  unfold appendScalarCol at h
  obtain ⟨c, hc, h⟩ := bind_ok h
  obtain ⟨c1, -, h⟩ := bind_ok h
  obtain ⟨c2, -, h⟩ := bind_ok h
  injection h with h
  subst h
  obtain ⟨w0, w1, w2, w3⟩ := wf
  refine ⟨⟨w0, ?_, w2, w3⟩, rfl, rfl, rfl, ?_⟩
  · show t.values.d1 + 1 = (t.vdims ++ [key]).length
    rw [w1]; simp
  · obtain ⟨-, pi, pc, po, pd, -, hp, -⟩ := iloc_picks hc
    obtain ⟨k', k'', h1, -⟩ := hp
    unfold normalizeKey sparseNormalize at h1
    by_contra hz
    have : t.values.d1 = 0 := by omega
    simp [this] at h1

theorem reindex_wf {t u : Tri K} {cols : List String} {x : Num K} (wf : WF t)
    (h : t.reindex cols x = .ok u) : WF u ∧ u.kdims = t.kdims ∧ u.odims = t.odims ∧
      u.ddims = t.ddims ∧ (cols ≠ [] → 1 ≤ t.values.d1) := by
  unfold reindex at h
  induction cols generalizing t with
  | nil =>
    simp only [List.foldlM_nil, pure, Except.pure] at h
    injection h with h
    subst h
    exact ⟨wf, rfl, rfl, rfl, fun h => absurd rfl h⟩
  | cons c cols ih =>
    rw [List.foldlM_cons] at h
    obtain ⟨t1, h1, h⟩ := bind_ok h
    by_cases hc : t.vdims.contains c
    · rw [if_pos hc] at h1
      injection h1 with h1
      subst h1
      obtain ⟨a1, a2, a3, a4, -⟩ := ih wf h
      refine ⟨a1, a2, a3, a4, fun _ => ?_⟩
      rw [wf.2.1]
      exact List.length_pos_of_mem (List.contains_iff_mem.1 hc)
    · rw [if_neg hc] at h1
      obtain ⟨b1, b2, b3, b4, b5⟩ := appendScalarCol_wf wf h1
      obtain ⟨a1, a2, a3, a4, -⟩ := ih b1 h
      exact ⟨a1, a2.trans b2, a3.trans b3, a4.trans b4, fun _ => b5⟩

theorem getCols_wf {t u : Tri K} {cols : List String} (wf : WF t) (h : t.getCols cols = .ok u) :
    WF u ∧ u.values.d0 = t.values.d0 ∧ u.values.d1 = cols.length ∧ u.values.d2 = t.values.d2 ∧
      u.values.d3 = t.values.d3 := by
  unfold getCols at h
  split at h
  · rename_i hall
    obtain ⟨w, pi, pc, po, pd, h0, h1, h2, h3, e0, e1, e2, e3⟩ := iloc_picks h
    refine ⟨w, by rw [e0, h0.all], ?_, by rw [e2, h2.all], by rw [e3, h3.all]⟩
    rw [e1, (h1.lst ?_).1, List.length_map]
    intro x hx
    obtain ⟨c, hc, rfl⟩ := List.mem_map.1 hx
    have := List.all_eq_true.1 hall c hc
    have := List.idxOf_lt_length_of_mem (List.contains_iff_mem.1 this)
    rw [wf.2.1]
    omega
  · cases h

/-- A broadcast of `m` cells under `n` labels against `k` cells has `n` cells. -/
def Fit1 (m n k : Nat) : Prop := ∀ r, Arr.bdim m k = some r → r = n

theorem Fit1.refl (n : Nat) : Fit1 n n n := by
  intro r h
  simp only [Arr.bdim, if_true, Option.some.injEq] at h
  exact h.symm

theorem Fit1.right (n : Nat) : Fit1 n n 1 := by
  intro r h
  rw [Arr.bdim_one] at h
  injection h with h
  exact h.symm

theorem Fit1.left (n : Nat) : Fit1 1 n n := by
  intro r h
  unfold Arr.bdim at h
  split_ifs at h <;> injection h with h <;> omega

theorem Fit1.same {m k : Nat} (hk : ¬ (m = 1 ∧ k = 0)) (h : ¬ (m = 1 ∧ 1 < k)) : Fit1 m m k := by
  intro r hr
  unfold Arr.bdim at hr
  split_ifs at hr with h1 h2 h3
  · injection hr with hr; exact hr.symm
  · omega
  · injection hr with hr; exact hr.symm

/-- No axis has one label in `x` and none in `y`. -/
def Safe (x y : Tri K) : Prop :=
  ¬ (x.kdims.length = 1 ∧ y.kdims.length = 0) ∧ ¬ (x.odims.length = 1 ∧ y.odims.length = 0) ∧
    ¬ (x.ddims.length = 1 ∧ y.ddims.length = 0)

theorem prepColumns_dims {x y x1 y1 : Tri K} (wx : WF x) (wy : WF y)
    (h : prepColumns x y = .ok (x1, y1)) :
    x1.values.d0 = x.values.d0 ∧ x1.kdims.length = x.kdims.length ∧
    x1.values.d2 = x.values.d2 ∧ x1.odims.length = x.odims.length ∧
    x1.values.d3 = x.values.d3 ∧ x1.ddims.length = x.ddims.length ∧
    y1.values.d0 = y.values.d0 ∧ y1.kdims.length = y.kdims.length ∧
    y1.values.d2 = y.values.d2 ∧ y1.odims.length = y.odims.length ∧
    y1.values.d3 = y.values.d3 ∧ y1.ddims.length = y.ddims.length ∧
    Fit1 x1.values.d1 x1.vdims.length y1.values.d1 ∧
    (x1.values.d1 = x.values.d1 ∨ (x1.values.d1 ≠ 1 ∧ x1.values.d1 ≠ x.values.d1)) := by
  obtain ⟨x_0, x_1, x_2, x_3⟩ := wx
  obtain ⟨y_0, y_1, y_2, y_3⟩ := wy
  have wx : WF x := ⟨x_0, x_1, x_2, x_3⟩
  have wy : WF y := ⟨y_0, y_1, y_2, y_3⟩
  unfold prepColumns at h
  split_ifs at h with h1 h2 h3 h4
  · injection h with h; injection h with ha hb; subst ha; subst hb
    refine ⟨rfl, rfl, rfl, rfl, rfl, rfl, rfl, rfl, rfl, rfl, rfl, rfl, ?_, Or.inl rfl⟩
    show Fit1 x.values.d1 y.vdims.length y.values.d1
    rw [x_1, y_1, h1.1]; exact Fit1.left _
  · injection h with h; injection h with ha hb; subst ha; subst hb
    refine ⟨rfl, rfl, rfl, rfl, rfl, rfl, rfl, rfl, rfl, rfl, rfl, rfl, ?_, Or.inl rfl⟩
    show Fit1 x.values.d1 x.vdims.length y.values.d1
    rw [x_1, y_1, h2.1]; exact Fit1.right _
  · injection h with h; injection h with ha hb; subst ha; subst hb
    refine ⟨rfl, rfl, rfl, rfl, rfl, rfl, rfl, rfl, rfl, rfl, rfl, rfl, ?_, Or.inl rfl⟩
    show Fit1 x.values.d1 x.vdims.length y.values.d1
    rw [x_1, y_1, h3.1]; exact Fit1.right _
  · injection h with h; injection h with ha hb; subst ha; subst hb
    refine ⟨rfl, rfl, rfl, rfl, rfl, rfl, rfl, rfl, rfl, rfl, rfl, rfl, ?_, Or.inl rfl⟩
    show Fit1 x.values.d1 x.vdims.length y.values.d1
    rw [← h4.1, ← x_1]; exact Fit1.refl _
  · dsimp only at h
    by_cases hadd : (y.vdims.filter fun c => !x.vdims.contains c) = []
    · exfalso
      simp only [hadd, if_true] at h
      split at h <;> obtain ⟨y', hy, h⟩ := bind_ok h <;> (try obtain ⟨z', hz, h⟩ := bind_ok h) <;> cases h
    simp only [if_neg hadd] at h
    obtain ⟨x', hx, h⟩ := bind_ok h
    have hyy : ∃ y', (if (x.vdims.filter fun c => !y.vdims.contains c) = [] then pure y
        else y.reindex (y.vdims ++ (x.vdims.filter fun c => !y.vdims.contains c)) 0) = .ok y' ∧
        (do
          let x'' ← x'.getCols (x.vdims ++ y.vdims.filter fun c => !x.vdims.contains c)
          let y'' ← y'.getCols (x.vdims ++ y.vdims.filter fun c => !x.vdims.contains c)
          Except.ok (x'', y'')) = Except.ok (x1, y1) := by
      split at h
      · rename_i hh
        obtain ⟨y', hy, h⟩ := bind_ok h
        exact ⟨y', by rw [if_pos hh]; exact hy, h⟩
      · rename_i hh
        obtain ⟨y', hy, h⟩ := bind_ok h
        exact ⟨y', by rw [if_neg hh]; exact hy, h⟩
    obtain ⟨y', hy, h⟩ := hyy
    obtain ⟨x'', hx', h⟩ := bind_ok h
    obtain ⟨y'', hy', h⟩ := bind_ok h
    injection h with h; injection h with ha hb; subst ha; subst hb
    obtain ⟨a1, a2, a3, a4, a5⟩ := reindex_wf wx hx
    have hyw : WF y' ∧ y'.kdims = y.kdims ∧ y'.odims = y.odims ∧ y'.ddims = y.ddims := by
      split at hy
      · injection hy with hy; subst hy; exact ⟨wy, rfl, rfl, rfl⟩
      · obtain ⟨b1, b2, b3, b4, -⟩ := reindex_wf wy hy
        exact ⟨b1, b2, b3, b4⟩
    obtain ⟨b1, b2, b3, b4⟩ := hyw
    obtain ⟨c1, c2, c3, c4, c5⟩ := getCols_wf a1 hx'
    obtain ⟨d1, d2, d3, d4, d5⟩ := getCols_wf b1 hy'
    have hpos : 1 ≤ x.values.d1 := a5 (by
      intro hnil
      exact hadd (List.append_eq_nil_iff.1 hnil).2)
    have hlen : 1 ≤ (y.vdims.filter fun c => !x.vdims.contains c).length :=
      List.length_pos_iff.2 hadd
    refine ⟨?_, ?_, ?_, ?_, ?_, ?_, ?_, ?_, ?_, ?_, ?_, ?_, ?_, Or.inr ?_⟩
    · rw [c2, a1.1, a2, x_0]
    · rw [← c1.1, c2, a1.1, a2]
    · rw [c4, a1.2.2.1, a3, x_2]
    · rw [← c1.2.2.1, c4, a1.2.2.1, a3]
    · rw [c5, a1.2.2.2, a4, x_3]
    · rw [← c1.2.2.2, c5, a1.2.2.2, a4]
    · rw [d2, b1.1, b2, y_0]
    · rw [← d1.1, d2, b1.1, b2]
    · rw [d4, b1.2.2.1, b3, y_2]
    · rw [← d1.2.2.1, d4, b1.2.2.1, b3]
    · rw [d5, b1.2.2.2, b4, y_3]
    · rw [← d1.2.2.2, d5, b1.2.2.2, b4]
    · rw [← c1.2.1, c3, d3]; exact Fit1.refl _
    · rw [c3, List.length_append, ← x_1]
      omega

theorem relabelOnes_dims {x y x1 y1 : Tri K} (hx2 : x.values.d2 = x.odims.length)
    (hx3 : x.values.d3 = x.ddims.length) (hy2 : y.values.d2 = y.odims.length)
    (hy3 : y.values.d3 = y.ddims.length) (n2 : ¬ (x.odims.length = 1 ∧ y.odims.length = 0))
    (n3 : ¬ (x.ddims.length = 1 ∧ y.ddims.length = 0))
    (h : relabelOnes x y = (x1, y1)) :
    x1.values = x.values ∧ y1.values = y.values ∧ x1.kdims = x.kdims ∧ y1.kdims = y.kdims ∧
    x1.vdims = x.vdims ∧ y1.vdims = y.vdims ∧
    Fit1 x1.values.d2 x1.odims.length y1.values.d2 ∧ Fit1 x1.values.d3 x1.ddims.length y1.values.d3 := by
  unfold relabelOnes at h
  by_cases ho : y.odims.length = 1 ∧ x.odims.length > 1
  · simp only [if_pos ho] at h
    have f2 : Fit1 x.values.d2 x.odims.length y.values.d2 := by
      rw [hx2, hy2, ho.1]; exact Fit1.right _
    by_cases hd : y.ddims.length = 1 ∧ x.ddims.length > 1
    · simp only [if_pos hd] at h
      injection h with ha hb; subst ha; subst hb
      refine ⟨rfl, rfl, rfl, rfl, rfl, rfl, f2, ?_⟩
      show Fit1 x.values.d3 x.ddims.length y.values.d3
      rw [hx3, hy3, hd.1]; exact Fit1.right _
    · simp only [if_neg hd] at h
      by_cases he : x.ddims.length = 1 ∧ y.ddims.length > 1
      · simp only [if_pos he] at h
        injection h with ha hb; subst ha; subst hb
        refine ⟨rfl, rfl, rfl, rfl, rfl, rfl, f2, ?_⟩
        show Fit1 x.values.d3 y.ddims.length y.values.d3
        rw [hx3, hy3, he.1]; exact Fit1.left _
      · simp only [if_neg he] at h
        injection h with ha hb; subst ha; subst hb
        refine ⟨rfl, rfl, rfl, rfl, rfl, rfl, f2, ?_⟩
        show Fit1 x.values.d3 x.ddims.length y.values.d3
        rw [hx3, hy3]; exact Fit1.same n3 (by omega)
  · simp only [if_neg ho] at h
    by_cases hp : x.odims.length = 1 ∧ y.odims.length > 1
    · simp only [if_pos hp] at h
      have f2 : Fit1 x.values.d2 y.odims.length y.values.d2 := by
        rw [hx2, hy2, hp.1]; exact Fit1.left _
      by_cases hd : y.ddims.length = 1 ∧ x.ddims.length > 1
      · simp only [if_pos hd] at h
        injection h with ha hb; subst ha; subst hb
        refine ⟨rfl, rfl, rfl, rfl, rfl, rfl, f2, ?_⟩
        show Fit1 x.values.d3 x.ddims.length y.values.d3
        rw [hx3, hy3, hd.1]; exact Fit1.right _
      · simp only [if_neg hd] at h
        by_cases he : x.ddims.length = 1 ∧ y.ddims.length > 1
        · simp only [if_pos he] at h
          injection h with ha hb; subst ha; subst hb
          refine ⟨rfl, rfl, rfl, rfl, rfl, rfl, f2, ?_⟩
          show Fit1 x.values.d3 y.ddims.length y.values.d3
          rw [hx3, hy3, he.1]; exact Fit1.left _
        · simp only [if_neg he] at h
          injection h with ha hb; subst ha; subst hb
          refine ⟨rfl, rfl, rfl, rfl, rfl, rfl, f2, ?_⟩
          show Fit1 x.values.d3 x.ddims.length y.values.d3
          rw [hx3, hy3]; exact Fit1.same n3 (by omega)
    · simp only [if_neg hp] at h
      have f2 : Fit1 x.values.d2 x.odims.length y.values.d2 := by
        rw [hx2, hy2]; exact Fit1.same n2 (by omega)
      by_cases hd : y.ddims.length = 1 ∧ x.ddims.length > 1
      · simp only [if_pos hd] at h
        injection h with ha hb; subst ha; subst hb
        refine ⟨rfl, rfl, rfl, rfl, rfl, rfl, f2, ?_⟩
        show Fit1 x.values.d3 x.ddims.length y.values.d3
        rw [hx3, hy3, hd.1]; exact Fit1.right _
      · simp only [if_neg hd] at h
        by_cases he : x.ddims.length = 1 ∧ y.ddims.length > 1
        · simp only [if_pos he] at h
          injection h with ha hb; subst ha; subst hb
          refine ⟨rfl, rfl, rfl, rfl, rfl, rfl, f2, ?_⟩
          show Fit1 x.values.d3 y.ddims.length y.values.d3
          rw [hx3, hy3, he.1]; exact Fit1.left _
        · simp only [if_neg he] at h
          injection h with ha hb; subst ha; subst hb
          refine ⟨rfl, rfl, rfl, rfl, rfl, rfl, f2, ?_⟩
          show Fit1 x.values.d3 x.ddims.length y.values.d3
          rw [hx3, hy3]; exact Fit1.same n3 (by omega)

theorem place_dims {n0 n1 n2 n3 ol oh dl dh : Nat} {a r : Arr K}
    (h : Arr.place n0 n1 n2 n3 ol oh dl dh a = .ok r) :
    r.d0 = n0 ∧ r.d1 = n1 ∧ r.d2 = n2 ∧ r.d3 = n3 ∧ (a.d1 = n1 ∨ a.d1 = 1) := by
  unfold Arr.place at h
  split_ifs at h with hc
  injection h with h
  subst h
  exact ⟨rfl, rfl, rfl, rfl, hc.2.1⟩

theorem prepOriginDev_dims {s1 : Nat} {x y x1 y1 : Tri K} (hx2 : x.values.d2 = x.odims.length)
    (hx3 : x.values.d3 = x.ddims.length) (hy2 : y.values.d2 = y.odims.length)
    (hy3 : y.values.d3 = y.ddims.length) (n2 : ¬ (x.odims.length = 1 ∧ y.odims.length = 0))
    (n3 : ¬ (x.ddims.length = 1 ∧ y.ddims.length = 0))
    (hs : x.values.d1 = s1 ∨ (x.values.d1 ≠ 1 ∧ x.values.d1 ≠ s1))
    (h : prepOriginDev x.values.d0 s1 x y = .ok (x1, y1)) :
    x1.values.d0 = x.values.d0 ∧ x1.values.d1 = x.values.d1 ∧ y1.values.d0 = y.values.d0 ∧
    y1.values.d1 = y.values.d1 ∧ x1.kdims = x.kdims ∧ y1.kdims = y.kdims ∧
    x1.vdims = x.vdims ∧
    Fit1 x1.values.d2 x1.odims.length y1.values.d2 ∧ Fit1 x1.values.d3 x1.ddims.length y1.values.d3 := by
  unfold prepOriginDev at h
  simp only at h
  obtain ⟨e1, e2, e3, e4, e5, e6, f2, f3⟩ :=
    relabelOnes_dims hx2 hx3 hy2 hy3 n2 n3 (x1 := (relabelOnes x y).1) (y1 := (relabelOnes x y).2) rfl
  split_ifs at h with h1 h2 h3
  · injection h with h; injection h with ha hb; subst ha; subst hb
    exact ⟨by rw [e1], by rw [e1], by rw [e2], by rw [e2], e3, e4, e5, f2, f3⟩
  · obtain ⟨ya, hya, h⟩ := bind_ok h
    obtain ⟨xa, hxa, h⟩ := bind_ok h
    injection h with h; injection h with ha hb; subst ha; subst hb
    obtain ⟨a0, a1, a2, a3, -⟩ := place_dims hya
    obtain ⟨b0, b1, b2, b3, b4⟩ := place_dims hxa
    have hs1 : x.values.d1 = s1 := by
      rw [e1] at b4
      rcases hs with hs | hs
      · exact hs
      · rcases b4 with b4 | b4
        · exact absurd b4 hs.2
        · exact absurd b4 hs.1
    refine ⟨b0, by rw [b1, hs1], by rw [a0, e2], by rw [a1, e2], e3, e4, e5, ?_, ?_⟩
    · rw [b2, a2]; exact Fit1.refl _
    · rw [b3, a3]; exact Fit1.refl _

theorem prepIndex_dims {x y x1 y1 : Tri K} (hx : x.values.d0 = x.kdims.length)
    (hy : y.values.d0 = y.kdims.length) (n0 : ¬ (x.kdims.length = 1 ∧ y.kdims.length = 0))
    (h : prepIndex x y = .ok (x1, y1)) :
    x1.values = x.values ∧ y1.values = y.values ∧ x1.vdims = x.vdims ∧ x1.odims = x.odims ∧
      x1.ddims = x.ddims ∧ Fit1 x1.values.d0 x1.kdims.length y1.values.d0 := by
  unfold prepIndex at h
  dsimp only at h
  split_ifs at h with h1 h2 h3 h4 h5 h6 <;>
    (try injection h with h) <;> (try injection h with ha hb) <;> (try subst ha) <;> (try subst hb) <;>
    refine ⟨rfl, rfl, rfl, rfl, rfl, ?_⟩
  · show Fit1 x.values.d0 y.kdims.length y.values.d0
    rw [hx, hy, h1.1]; exact Fit1.left _
  · show Fit1 x.values.d0 x.kdims.length y.values.d0
    rw [hx, hy, h2.2]; exact Fit1.right _
  · show Fit1 x.values.d0 x.kdims.length y.values.d0
    rw [hx, hy, h3.1, h3.2.1]; exact Fit1.refl _
  · show Fit1 x.values.d0 y.kdims.length y.values.d0
    rw [hx, hy, h3.1, h3.2.1]; exact Fit1.refl _
  · rw [hx, hy]; exact Fit1.same n0 (by omega)

theorem validate_ready {x y o : Tri K} {a : Arr K} (wx : WF x) (wy : WF y) (ne : Safe x y)
    (h : validate x y = .ok (o, a)) : Ready o a := by
  obtain ⟨n0, n2, n3⟩ := ne
  unfold validate at h
  split at h
  · cases h
  obtain ⟨⟨x1, y1⟩, h1, h⟩ := bind_ok h
  obtain ⟨⟨x2, y2⟩, h2, h⟩ := bind_ok h
  obtain ⟨⟨x3, y3⟩, h3, h⟩ := bind_ok h
  injection h with h; injection h with ha hb; subst ha; subst hb
  obtain ⟨a1, a2, a3, a4, a5, a6, b1, b2, b3, b4, b5, b6, f1, hs⟩ :=
    prepColumns_dims (x := { x with isPattern := x.isPattern && y.isPattern, vd := max x.vd y.vd })
      (y := { y with isPattern := x.isPattern && y.isPattern }) wx wy h1
  dsimp only at a1 a2 a3 a4 a5 a6 b1 b2 b3 b4 b5 b6 hs
  obtain ⟨wx0, wx1, wx2, wx3⟩ := wx
  obtain ⟨wy0, wy1, wy2, wy3⟩ := wy
  rw [← a1] at h2
  obtain ⟨c1, c2, c3, c4, c5, c6, c7, f2, f3⟩ := prepOriginDev_dims (by omega) (by omega) (by omega)
    (by omega) (by omega) (by omega) hs h2
  obtain ⟨d1, d2, d3, d4, d5, f0⟩ := prepIndex_dims (by rw [c1, c5]; omega) (by rw [c3, c6]; omega)
    (by rw [c5, c6]; omega) h3
  refine ⟨f0, ?_, ?_, ?_⟩
  · rw [d1, d2, d3, c2, c4, c7]; exact f1
  · rw [d1, d2, d4]; exact f2
  · rw [d1, d2, d5]; exact f3

theorem add_wf {x y u : Tri K} (wx : WF x) (wy : WF y) (ne : Safe x y) (h : x.add y = .ok u) :
    WF u := by
  obtain ⟨⟨o, a⟩, hv, h⟩ := bind_ok h
  obtain ⟨v, hz, h⟩ := bind_ok h
  injection h with h
  subst h
  have hw : WF v := (validate_ready wx wy ne hv).zipArr hz
  exact hw

theorem sub_wf {x y u : Tri K} (wx : WF x) (wy : WF y) (ne : Safe x y) (h : x.sub y = .ok u) :
    WF u := by
  obtain ⟨⟨o, a⟩, hv, h⟩ := bind_ok h
  obtain ⟨v, hz, h⟩ := bind_ok h
  injection h with h
  subst h
  have hw : WF v := (validate_ready wx wy ne hv).zipArr hz
  exact hw

theorem mul_wf {x y u : Tri K} (wx : WF x) (wy : WF y) (ne : Safe x y) (h : x.mul y = .ok u) :
    WF u := by
  obtain ⟨⟨o, a⟩, hv, h⟩ := bind_ok h
  exact (validate_ready wx wy ne hv).zipArr h

theorem div_wf {x y u : Tri K} (wx : WF x) (wy : WF y) (ne : Safe x y) (h : x.div y = .ok u) :
    WF u := by
  obtain ⟨⟨o, a⟩, hv, h⟩ := bind_ok h
  exact (validate_ready wx wy ne hv).zipArr h

/-- Only the values change, and they keep their shape. -/
def Revalued (t u : Tri K) : Prop := u = { t with values := u.values } ∧ Arr.SameShape u.values t.values

theorem Revalued.wf {t u : Tri K} (h : Revalued t u) (wf : WF t) : WF u := by
  obtain ⟨e, s0, s1, s2, s3⟩ := h
  obtain ⟨w0, w1, w2, w3⟩ := wf
  refine ⟨?_, ?_, ?_, ?_⟩
  · rw [s0, w0, e]
  · rw [s1, w1, e]
  · rw [s2, w2, e]
  · rw [s3, w3, e]

theorem Revalued.same {t u : Tri K} (h : Revalued t u) : SameAxes t u := by
  rw [h.1]
  exact ⟨rfl, rfl, rfl, rfl, rfl, rfl, rfl, rfl⟩

theorem Revalued.trans {t u v : Tri K} (h : Revalued t u) (h' : Revalued u v) : Revalued t v := by
  obtain ⟨e, s0, s1, s2, s3⟩ := h
  obtain ⟨e', r0, r1, r2, r3⟩ := h'
  refine ⟨?_, r0.trans s0, r1.trans s1, r2.trans s2, r3.trans s3⟩
  rw [e', e]

theorem zipArr_scalar {t u : Tri K} {f : Num K → Num K → Num K} {x : Num K}
    (h : t.zipArr f (Arr.scalar x) = .ok u) : Revalued t u := by
  obtain ⟨v, hv, h⟩ := bind_ok h
  injection h with h
  subst h
  obtain ⟨e0, e1, e2, e3⟩ := Arr.zip_dims hv
  simp only [Arr.scalar, Arr.const, Arr.bdim_one, Option.some.injEq] at e0 e1 e2 e3
  exact ⟨rfl, e0.symm, e1.symm, e2.symm, e3.symm⟩

theorem zipArr_sameShape {t u : Tri K} {f : Num K → Num K → Num K} {a : Arr K}
    (hs : Arr.SameShape t.values a) (h : t.zipArr f a = .ok u) : Revalued t u := by
  obtain ⟨v, hv, h⟩ := bind_ok h
  injection h with h
  subst h
  obtain ⟨e0, e1, e2, e3⟩ := Arr.zip_dims hv
  obtain ⟨s0, s1, s2, s3⟩ := hs
  rw [← s0] at e0
  rw [← s1] at e1
  rw [← s2] at e2
  rw [← s3] at e3
  simp only [Arr.bdim, if_true, Option.some.injEq] at e0 e1 e2 e3
  exact ⟨rfl, e0.symm, e1.symm, e2.symm, e3.symm⟩

theorem cleanup_revalued (t : Tri K) : Revalued t t.cleanup := ⟨rfl, rfl, rfl, rfl, rfl⟩

theorem addArr_scalar_revalued {t u : Tri K} {x : Num K} (h : t.addArr (Arr.scalar x) = .ok u) :
    Revalued t u := by
  obtain ⟨v, hv, h⟩ := bind_ok h
  injection h with h
  subst h
  exact (zipArr_scalar hv).trans (cleanup_revalued v)

theorem subArr_scalar_revalued {t u : Tri K} {x : Num K} (h : t.subArr (Arr.scalar x) = .ok u) :
    Revalued t u := by
  obtain ⟨v, hv, h⟩ := bind_ok h
  injection h with h
  subst h
  exact (zipArr_scalar hv).trans (cleanup_revalued v)

theorem fillna_wf {t u : Tri K} {v : K} (wf : WF t) (h : t.fillna v = .ok u) : WF u := by
  obtain ⟨fr, h1, h⟩ := bind_ok h
  obtain ⟨z, h2, h⟩ := bind_ok h
  obtain ⟨z', h3, h⟩ := bind_ok h
  obtain ⟨fl, h4, h⟩ := bind_ok h
  obtain ⟨s, h5, h⟩ := bind_ok h
  injection h with h
  subst h
  have r1 := addArr_scalar_revalued h1
  have r3 := (zipArr_scalar h2).trans (addArr_scalar_revalued h3)
  have r4 : Revalued z' fl := by
    refine zipArr_sameShape ?_ h4
    obtain ⟨-, a0, a1, a2, a3⟩ := r1
    obtain ⟨-, b0, b1, b2, b3⟩ := r3
    exact ⟨b0.trans a0.symm, b1.trans a1.symm, b2.trans a2.symm, b3.trans a3.symm⟩
  have r := r3.trans r4
  have sa : SameAxes fr fl := r1.same.symm.trans r.same
  rw [add_same sa (r1.wf wf) (r.wf wf)] at h5
  injection h5 with h5
  subst h5
  obtain ⟨-, a0, a1, a2, a3⟩ := r1
  obtain ⟨w0, w1, w2, w3⟩ := wf
  exact ⟨a0.trans w0, a1.trans w1, a2.trans w2, a3.trans w3⟩

theorem wf_iff {t : Tri K} : WF t ↔ ∀ ax, t.values.dim ax = t.axisLen ax :=
  ⟨fun h ax => by cases ax; exacts [h.1, h.2.1, h.2.2.1, h.2.2.2],
    fun h => ⟨h .index, h .columns, h .origin, h .development⟩⟩

theorem Picks.eq {n : Nat} {k : Key} {ps qs : List Nat} (h : Picks n k ps) (h' : SelS n k qs) :
    ps = qs := by
  obtain ⟨k', k'', h1, h2, h3⟩ := h
  obtain ⟨k, s, e1, e2, e3⟩ := h'
  rw [h1] at e1; injection e1 with e1; subst e1
  rw [h2] at e2; injection e2 with e2; subst e2
  have : PySlice.positions s n = .ok ps := h3
  rw [this] at e3; injection e3 with e3

theorem ilocAx_dims {t u : Tri K} {ax : Axis} {k : Key} (h : t.ilocAx ax k = .ok u) :
    WF u ∧ (∀ b, b ≠ ax → u.values.dim b = t.values.dim b) ∧
      ∃ ps, Picks (t.values.dim ax) k ps ∧ u.values.dim ax = ps.length := by
  cases ax <;>
  · obtain ⟨w, pi, pc, po, pd, h0, h1, h2, h3, e0, e1, e2, e3⟩ := iloc_picks h
    refine ⟨w, ?_, ?_⟩
    · intro b hb
      cases b
      · first | exact absurd rfl hb | exact e0.trans h0.all
      · first | exact absurd rfl hb | exact e1.trans h1.all
      · first | exact absurd rfl hb | exact e2.trans h2.all
      · first | exact absurd rfl hb | exact e3.trans h3.all
    · first
        | exact ⟨_, h0, e0⟩
        | exact ⟨_, h1, e1⟩
        | exact ⟨_, h2, e2⟩
        | exact ⟨_, h3, e3⟩

theorem ilocD_dims {t u : Tri K} {k : Key} (h : t.ilocD k = .ok u) :
    WF u ∧ u.values.d0 = t.values.d0 ∧ u.values.d1 = t.values.d1 ∧ u.values.d2 = t.values.d2 ∧
      ∃ ps, Picks t.values.d3 k ps ∧ u.values.d3 = ps.length := by
  obtain ⟨w, e, ps, hp, hl⟩ := ilocAx_dims (ax := .development) h
  exact ⟨w, e .index (by decide), e .columns (by decide), e .origin (by decide), ps, hp, hl⟩

theorem from_upto_length {n : Nat} {ps qs : List Nat} (h : Picks n (.from 1) ps)
    (h' : Picks n (.upto (-1)) qs) : ps.length = qs.length := by
  have e : ps.length = n - 1 := by
    rw [h.eq (selS_from n 1), List.length_map, List.length_range]
  have e' : qs.length = n - 1 := by
    rcases Nat.eq_zero_or_pos n with rfl | hn
    · have : SelS 0 (.upto (-1)) [] := ⟨_, _, rfl, rfl, rfl⟩
      rw [h'.eq this]; rfl
    · rw [h'.eq (selS_upto_neg n 1 hn (by decide)), List.length_range]
  rw [e, e']

/-! ## Concatenation -/

theorem cat2_dims {ax : Axis} {a b r : Arr K} (h : Arr.cat2 ax a b = .ok r) :
    r.dim ax = a.dim ax + b.dim ax ∧ ∀ x, x ≠ ax → r.dim x = a.dim x := by
  unfold Arr.cat2 at h
  cases ax <;> simp only at h <;> split_ifs at h <;> injection h with h <;> subst h <;>
    refine ⟨rfl, ?_⟩ <;> intro x hx <;> cases x <;> first | rfl | exact absurd rfl hx

theorem cats_dims {ax : Axis} {l : List (Tri K)} {a r : Arr K}
    (h : l.foldlM (fun a t => Arr.cat2 ax a t.values) a = .ok r) :
    r.dim ax = a.dim ax + (l.map fun t => t.values.dim ax).sum ∧ ∀ x, x ≠ ax → r.dim x = a.dim x := by
  induction l generalizing a with
  | nil =>
    simp only [List.foldlM_nil, pure, Except.pure] at h
    injection h with h
    subst h
    simp
  | cons t l ih =>
    rw [List.foldlM_cons] at h
    obtain ⟨b, hb, h⟩ := bind_ok h
    obtain ⟨c1, c2⟩ := cat2_dims hb
    obtain ⟨d1, d2⟩ := ih h
    refine ⟨?_, fun x hx => (d2 x hx).trans (c2 x hx)⟩
    rw [d1, c1, List.map_cons, List.sum_cons, Nat.add_assoc]

theorem fillColumns_wf {t u : Tri K} {cols : List String} (wf : WF t)
    (h : fillColumns cols t = .ok u) : WF u ∧ ∀ ax, ax ≠ .columns → u.axisLen ax = t.axisLen ax := by
  unfold fillColumns at h
  induction cols generalizing t with
  | nil =>
    simp only [List.foldlM_nil, pure, Except.pure] at h
    injection h with h
    subst h
    exact ⟨wf, fun _ _ => rfl⟩
  | cons c cols ih =>
    rw [List.foldlM_cons] at h
    obtain ⟨t1, h1, h⟩ := bind_ok h
    by_cases hc : t.vdims.contains c
    · rw [if_pos hc] at h1
      injection h1 with h1
      subst h1
      exact ih wf h
    · rw [if_neg hc] at h1
      obtain ⟨b1, b2, b3, b4, -⟩ := appendScalarCol_wf wf h1
      obtain ⟨a1, a2⟩ := ih b1 h
      refine ⟨a1, fun ax hax => (a2 ax hax).trans ?_⟩
      cases ax
      · exact congrArg List.length b2
      · exact absurd rfl hax
      · exact congrArg List.length b3
      · exact congrArg List.length b4

theorem mapM_length {α β : Type} {f : α → Except Err β} {l : List α} {r : List β}
    (h : l.mapM f = .ok r) : r.length = l.length := by
  induction l generalizing r with
  | nil =>
    simp only [List.mapM_nil, pure, Except.pure] at h
    injection h with h
    subst h; rfl
  | cons a l ih =>
    rw [List.mapM_cons] at h
    obtain ⟨b, -, h⟩ := bind_ok h
    obtain ⟨bs, hb, h⟩ := bind_ok h
    simp only [pure, Except.pure] at h
    injection h with h
    subst h
    simp [ih hb]

theorem alignColumns_wf {ax : Axis} {l r : List (Tri K)} (wf : ∀ t ∈ l, WF t)
    (h : alignColumns ax l = .ok r) : r.length = l.length ∧ (∀ t ∈ r, WF t) ∧
      r.map (fun t => t.axisLen ax) = l.map (fun t => t.axisLen ax) := by
  unfold alignColumns at h
  split_ifs at h with hax
  · injection h with h
    subst h
    exact ⟨rfl, wf, rfl⟩
  · refine ⟨mapM_length h, ?_, ?_⟩
    · intro u hu
      obtain ⟨t, ht, e⟩ := Dev.mapM_mem _ h u hu
      exact (fillColumns_wf (wf t ht) e).1
    · generalize allColumns l = cols at h
      induction l generalizing r with
      | nil =>
        simp only [List.mapM_nil, pure, Except.pure] at h
        injection h with h
        subst h; rfl
      | cons a l ih =>
        rw [List.mapM_cons] at h
        obtain ⟨b, hb, h⟩ := bind_ok h
        obtain ⟨bs, hbs, h⟩ := bind_ok h
        simp only [pure, Except.pure] at h
        injection h with h
        subst h
        rw [List.map_cons, List.map_cons, ih (fun t ht => wf t (by simp [ht])) hbs,
          (fillColumns_wf (wf a (by simp)) hb).2 ax hax]

theorem sum_flatMap_length {α β : Type} (l : List α) (f : α → List β) :
    (l.flatMap f).length = (l.map fun a => (f a).length).sum := by
  induction l with
  | nil => rfl
  | cons a l ih => simp [ih]

theorem concat_wf {ax : Axis} {l : List (Tri K)} {u : Tri K} (wf : ∀ t ∈ l, WF t)
    (h : concat ax l = .ok u) : WF u ∧ u.values.dim ax = (l.map fun t => t.axisLen ax).sum := by
  unfold concat at h
  split at h
  · cases h
  obtain ⟨r, hr, h⟩ := bind_ok h
  obtain ⟨-, hw, hsum⟩ := alignColumns_wf wf hr
  rw [← hsum]
  clear hr wf hsum
  match r, hw, h with
  | t0 :: rest, hw, h =>
    obtain ⟨-, -, h⟩ := bind_ok h
    obtain ⟨v, hv, h⟩ := bind_ok h
    obtain ⟨d1, d2⟩ := cats_dims hv
    have w0 := wf_iff.1 (hw t0 (by simp))
    have hlen : v.dim ax = ((t0 :: rest).map fun t => t.axisLen ax).sum := by
      rw [d1, List.map_cons, List.sum_cons, w0 ax]
      congr 2
      apply List.map_congr_left
      intro t ht
      exact wf_iff.1 (hw t (by simp [ht])) ax
    rw [wf_iff]
    cases ax <;> simp only at h <;> injection h with h <;> subst h <;> refine ⟨?_, hlen⟩ <;>
      intro b <;> cases b <;>
      first
        | (show v.dim _ = (List.flatMap _ _).length; rw [hlen, sum_flatMap_length]; rfl)
        | (refine (d2 _ (by decide)).trans ?_; exact w0 _)

/-- Labels of the parts of a grouping do not matter: the caller sets them. -/
theorem concatIgnore_dims {ax : Axis} {l : List (Tri K)} {u : Tri K} {n : Nat} (wf : ∀ t ∈ l, WF t)
    (hn : ∀ t ∈ l, t.axisLen ax = n) (h : concatIgnore ax l = .ok u) :
    WF u ∧ u.values.dim ax = l.length * n := by
  unfold concatIgnore at h
  split at h
  · cases h
  obtain ⟨r, hr, h⟩ := bind_ok h
  obtain ⟨hl, hw, hm⟩ := alignColumns_wf wf hr
  have hm : ∀ t ∈ r, t.axisLen ax = n := by
    intro t ht
    have : t.axisLen ax ∈ r.map (fun t => t.axisLen ax) := List.mem_map_of_mem ht
    rw [hm] at this
    obtain ⟨t', ht', e⟩ := List.mem_map.1 this
    rw [← e]; exact hn t' ht'
  clear hr wf hn
  match r, hl, hw, hm, h with
  | t0 :: rest, hl, hw, hm, h =>
    dsimp only at h
    split_ifs at h
    obtain ⟨v, hv, h⟩ := bind_ok h
    obtain ⟨d1, d2⟩ := cats_dims hv
    have w0 := wf_iff.1 (hw t0 (by simp))
    have hlen : v.dim ax = ((t0 :: rest).map fun t => t.axisLen ax).sum := by
      rw [d1, List.map_cons, List.sum_cons, w0 ax]
      congr 2
      apply List.map_congr_left
      intro t ht
      exact wf_iff.1 (hw t (by simp [ht])) ax
    have hlen' : v.dim ax = l.length * n := by
      rw [hlen, ← hl]
      rw [List.map_congr_left (g := fun _ => n) hm, List.map_const', List.sum_replicate]
      rfl
    rw [wf_iff]
    cases ax <;> simp only at h <;> injection h with h <;> subst h <;> refine ⟨?_, hlen'⟩ <;>
      intro b <;> cases b <;>
      first
        | (show v.dim _ = (List.map _ _).length
           rw [List.length_map, List.length_range, hlen, sum_flatMap_length]; rfl)
        | (refine (d2 _ (by decide)).trans ?_; exact w0 _)

/-! ## Selection by masks -/

theorem maskLabels_length {α : Type} (l : List α) (m : List Bool) (h : m.length = l.length) :
    (maskLabels l m).length = m.countP id := by
  unfold maskLabels
  rw [List.length_map]
  induction l generalizing m with
  | nil =>
    have : m = [] := List.length_eq_zero_iff.1 h
    subst this; rfl
  | cons a l ih =>
    match m, h with
    | b :: m, h =>
      have := ih m (by simpa using h)
      cases b <;> simp [this]

theorem maskPositions_length {α : Type} (l : List α) (m : List Bool) (h : m.length = l.length) :
    (maskPositions m).length = (maskLabels l m).length := by
  rw [maskLabels_length l m h]
  unfold maskPositions
  rw [List.length_map, ← List.countP_eq_length_filter]
  conv_rhs => rw [← map_getD_range m false, List.countP_map]
  rfl

theorem sliceOrigin_wf {t u : Tri K} {m : List Bool} (wf : WF t) (h : t.sliceOrigin m = .ok u) :
    WF u := by
  unfold sliceOrigin at h
  split_ifs at h with hm
  obtain ⟨k, hk, h⟩ := bind_ok h
  obtain ⟨po, hp, h⟩ := bind_ok h
  injection h with h
  subst h
  obtain ⟨w0, w1, w2, w3⟩ := wf
  push Not at hm
  have hl := (contig_length (by
    intro x hx
    obtain ⟨i, hi, rfl⟩ := List.mem_map.1 hx
    have := List.mem_range.1 (List.mem_filter.1 hi).1
    rw [w2]; omega) hk hp).1
  refine ⟨?_, ?_, ?_, ?_⟩
  · simp [Arr.take, w0]
  · simp [Arr.take, w1]
  · show po.length = _
    rw [hl, maskPositions_length _ _ hm]
  · simp [Arr.take, w3]

theorem sliceDev_wf {t u : Tri K} {m : List Bool} (wf : WF t) (h : t.sliceDev m = .ok u) :
    WF u := by
  unfold sliceDev at h
  split_ifs at h with hm
  obtain ⟨k, hk, h⟩ := bind_ok h
  obtain ⟨po, hp, h⟩ := bind_ok h
  injection h with h
  subst h
  obtain ⟨w0, w1, w2, w3⟩ := wf
  push Not at hm
  have hl := (contig_length (by
    intro x hx
    obtain ⟨i, hi, rfl⟩ := List.mem_map.1 hx
    have := List.mem_range.1 (List.mem_filter.1 hi).1
    rw [w3]; omega) hk hp).1
  refine ⟨?_, ?_, ?_, ?_⟩
  · simp [Arr.take, w0]
  · simp [Arr.take, w1]
  · simp [Arr.take, w2]
  · show po.length = _
    rw [hl, maskPositions_length _ _ hm]

theorem filterMask_wf {t u : Tri K} {key : Nat → Nat → Bool} (h : t.filterMask key = .ok u) :
    WF u ∧ u.ddims ≠ [] := by
  have w : WF u := Dev.getIdx_wf h
  refine ⟨w, ?_⟩
  unfold filterMask getIdx at h
  obtain ⟨c0, m0, h⟩ := bind_ok h
  obtain ⟨c1, m1, h⟩ := bind_ok h
  obtain ⟨c2, m2, h⟩ := bind_ok h
  obtain ⟨c3, m3, h⟩ := bind_ok h
  split at h
  · cases h
  obtain ⟨p0, q0, h⟩ := bind_ok h
  obtain ⟨p1, q1, h⟩ := bind_ok h
  obtain ⟨p2, q2, h⟩ := bind_ok h
  obtain ⟨p3, q3, h⟩ := bind_ok h
  obtain ⟨-, -, -, -, d3⟩ := pick_dims h
  obtain ⟨e, ne⟩ := contig_length (n := t.values.d3) (by
    intro x hx
    obtain ⟨i, hi, rfl⟩ := List.mem_map.1 hx
    have := List.mem_range.1 (List.mem_filter.1 hi).1
    omega) m3 q3
  intro hnil
  have := w.2.2.2
  rw [hnil, List.length_nil, d3, e] at this
  exact ne (List.length_eq_zero_iff.1 this)

theorem getVal_wf {t u : Tri K} {P : Int → Bool} (wf : WF t) (h : t.getVal P = .ok u) : WF u := by
  unfold getVal at h
  split_ifs at h
  · exact (filterMask_wf h).1
  · exact sliceOrigin_wf wf h

theorem relabelAgg_len {t : Tri K} {ax : Axis} (hne : t.axisLen ax ≠ 0) (b : Axis) :
    (t.relabelAgg ax).axisLen b = if b = ax then 1 else t.axisLen b := by
  cases ax <;> simp only [axisLen] at hne <;> cases b <;>
    simp only [relabelAgg, reduceCtorEq, if_false, if_true] <;> split_ifs with h1 <;>
    simp only [axisLen] <;> first | rfl | omega | (rw [List.length_take]; omega)

theorem sumKeep_wf {t : Tri K} {ax : Axis} (wf : WF t) (hne : t.axisLen ax ≠ 0) :
    WF (t.sumKeep ax) := by
  rw [wf_iff] at wf ⊢
  intro b
  have e : (t.sumKeep ax).axisLen b = (t.relabelAgg ax).axisLen b := by cases b <;> rfl
  rw [e, relabelAgg_len hne]
  have := wf b
  cases ax <;> cases b <;> first | rfl | exact this

theorem sum_wf {t u : Tri K} {ax : Axis} (wf : WF t) (hne : t.axisLen ax ≠ 0)
    (h : t.sum ax = .tri u) : WF u := by
  unfold Tri.sum toAgg at h
  split_ifs at h
  injection h with h
  subst h
  exact sumKeep_wf wf hne

theorem latestDiagonal_wf {t u : Tri K} (wf : WF t) (hne : t.ddims ≠ [])
    (h : t.latestDiagonal = .ok (.tri u)) : WF u := by
  obtain ⟨v, hv, h⟩ := bind_ok h
  injection h with h
  refine sum_wf (getVal_wf wf hv) ?_ h
  show v.ddims.length ≠ 0
  unfold getVal at hv
  split_ifs at hv with hd
  · have := (filterMask_wf hv).2
    simpa using this
  · unfold sliceOrigin at hv
    split_ifs at hv
    obtain ⟨k, hk, hv⟩ := bind_ok hv
    obtain ⟨po, hp, hv⟩ := bind_ok hv
    injection hv with hv
    subst hv
    simpa using hne

/-! ## Accumulation and link ratios -/

theorem incrToCum_wf {t : Tri K} (wf : WF t) : WF t.incrToCum := by
  unfold incrToCum
  split_ifs
  · exact wf
  · obtain ⟨w0, w1, w2, w3⟩ := wf
    dsimp only
    split <;> exact ⟨w0, w1, w2, w3⟩
  · exact wf

theorem cumToIncr_wf {t u : Tri K} (wf : WF t) (h : t.cumToIncr = .ok u) : WF u := by
  unfold cumToIncr at h
  split_ifs at h with h1 h2
  · injection h with h; subst h; exact wf
  · obtain ⟨a, ha, h⟩ := bind_ok h
    obtain ⟨b, hb, h⟩ := bind_ok h
    obtain ⟨d, hd, h⟩ := bind_ok h
    obtain ⟨l, hl, h⟩ := bind_ok h
    obtain ⟨r, hr, h⟩ := bind_ok h
    injection h with h
    subst h
    obtain ⟨wa, a0, a1, a2, pa, hpa, a3⟩ := ilocD_dims ha
    obtain ⟨wb, b0, b1, b2, pb, hpb, b3⟩ := ilocD_dims hb
    obtain ⟨wl, -⟩ := ilocD_dims hl
    have hs : Arr.SameShape a.values b.values :=
      ⟨a0.trans b0.symm, a1.trans b1.symm, a2.trans b2.symm, by rw [a3, b3, from_upto_length hpb hpa]⟩
    have wd := (zipArr_sameShape hs hd).wf wa
    have wr : WF r := (concat_wf (by simp [wd, wl]) hr).1
    exact wr
  · obtain ⟨b, hb, h⟩ := bind_ok h
    obtain ⟨a, ha, h⟩ := bind_ok h
    obtain ⟨d, hd, h⟩ := bind_ok h
    obtain ⟨l, hl, h⟩ := bind_ok h
    obtain ⟨r, hr, h⟩ := bind_ok h
    injection h with h
    subst h
    obtain ⟨wa, a0, a1, a2, pa, hpa, a3⟩ := ilocD_dims ha
    obtain ⟨wb, b0, b1, b2, pb, hpb, b3⟩ := ilocD_dims hb
    obtain ⟨wl, -⟩ := ilocD_dims hl
    have hs : Arr.SameShape b.values a.values :=
      ⟨b0.trans a0.symm, b1.trans a1.symm, b2.trans a2.symm, by rw [a3, b3, from_upto_length hpb hpa]⟩
    obtain ⟨e, he, hd⟩ := bind_ok hd
    injection hd with hd
    subst hd
    have wd := ((zipArr_sameShape hs he).trans (cleanup_revalued e)).wf wb
    have wr : WF r := (concat_wf (by simp [wd, wl]) hr).1
    exact wr

theorem linkRatio_wf {t u : Tri K} (wf : WF t) (h : t.linkRatio = .ok u) : WF u := by
  unfold linkRatio at h
  split_ifs at h with h1
  · injection h with h; subst h; exact wf
  obtain ⟨a, ha, h⟩ := bind_ok h
  obtain ⟨b, hb, h⟩ := bind_ok h
  obtain ⟨d, hd, h⟩ := bind_ok h
  obtain ⟨wa, a0, a1, a2, pa, hpa, a3⟩ := ilocD_dims ha
  obtain ⟨wb, b0, b1, b2, pb, hpb, b3⟩ := ilocD_dims hb
  have hs : Arr.SameShape (rdiv 1 a).values b.values :=
    ⟨a0.trans b0.symm, a1.trans b1.symm, a2.trans b2.symm, by
      show a.values.d3 = _
      rw [a3, b3, from_upto_length hpb hpa]⟩
  have wd : WF d := (zipArr_sameShape hs hd).wf wa
  dsimp only at h
  split_ifs at h
  · obtain ⟨e, he, h⟩ := bind_ok h
    injection h with h
    injection he with he
    subst he; subst h
    exact wd
  · obtain ⟨e, he, h⟩ := bind_ok h
    injection h with h
    subst h
    have := getVal_wf wd he
    exact this

/-! ## Shifting, dropping -/

theorem relabelAxis_wf {t u : Tri K} {ax : Axis} {l : List Int} (wf : WF t)
    (h : t.relabelAxis ax l = .ok u) : WF u := by
  obtain ⟨w0, w1, w2, w3⟩ := wf
  cases ax
  · cases h
  · cases h
  · simp only [relabelAxis] at h
    split_ifs at h with hl
    injection h with h
    subst h
    exact ⟨w0, w1, by rw [hl]; exact w2, w3⟩
  · simp only [relabelAxis] at h
    split_ifs at h with hl
    injection h with h
    subst h
    exact ⟨w0, w1, w2, by rw [hl]; exact w3⟩

theorem shiftLeft_wf {t u : Tri K} {ax : Axis} (h : t.shiftLeft ax = .ok u) : WF u := by
  obtain ⟨a, ha, h⟩ := bind_ok h
  obtain ⟨a', ha', h⟩ := bind_ok h
  obtain ⟨b, hb, h⟩ := bind_ok h
  obtain ⟨b', hb', h⟩ := bind_ok h
  have w1 := relabelAxis_wf (ilocAx_dims ha).1 ha'
  have w2 := (zipArr_scalar hb').wf (ilocAx_dims hb).1
  exact (concat_wf (by simp [w1, w2]) h).1

theorem shiftRight_wf {t u : Tri K} {ax : Axis} (h : t.shiftRight ax = .ok u) : WF u := by
  obtain ⟨a, ha, h⟩ := bind_ok h
  obtain ⟨a', ha', h⟩ := bind_ok h
  obtain ⟨b, hb, h⟩ := bind_ok h
  obtain ⟨b', hb', h⟩ := bind_ok h
  have w1 := (zipArr_scalar ha').wf (ilocAx_dims ha).1
  have w2 := relabelAxis_wf (ilocAx_dims hb).1 hb'
  exact (concat_wf (by simp [w1, w2]) h).1

theorem shiftSteps_wf {step : Tri K → Except Err (Tri K)} (hs : ∀ {t u}, step t = .ok u → WF u) :
    ∀ {n : Nat} {t u : Tri K}, WF t → shiftSteps step n t = .ok u → WF u
  | 0, t, u, wf, h => by
    unfold shiftSteps at h
    injection h with h; subst h; exact wf
  | n + 1, t, u, wf, h => by
    unfold shiftSteps at h
    obtain ⟨v, hv, h⟩ := bind_ok h
    exact shiftSteps_wf hs (hs hv) h

theorem shift_wf {t u : Tri K} {p : Int} {ax : Axis} (wf : WF t) (h : t.shift p ax = .ok u) :
    WF u := by
  unfold shift at h
  split_ifs at h
  · injection h with h; subst h; exact wf
  · exact shiftSteps_wf shiftLeft_wf wf h
  · exact shiftSteps_wf shiftRight_wf wf h

theorem dropna_wf {t u : Tri K} (wf : WF t) (h : t.dropna = .ok u) : WF u := by
  obtain ⟨s, hs, h⟩ := bind_ok h
  dsimp only at h
  split_ifs at h
  · obtain ⟨v, hv, h⟩ := bind_ok h
    exact sliceOrigin_wf (sliceDev_wf wf hv) h
  · exact sliceOrigin_wf wf h

/-! ## Grouping -/

theorem Picks.nonneg {n : Nat} {l : List Int} {ps : List Nat} (h : Picks n (.lst l) ps)
    (hin : ∀ x ∈ l, 0 ≤ x) : ps.length = l.length ∧ l ≠ [] := by
  refine h.lst ?_
  intro x hx
  refine ⟨hin x hx, ?_⟩
  by_contra hlt
  obtain ⟨k', k'', h1, -⟩ := h
  unfold normalizeKey sparseNormalize at h1
  have ha : (l.any fun i => decide (i ≥ n ∨ i < -(n : Int))) = true := by
    rw [List.any_eq_true]
    exact ⟨x, hx, by simp only [decide_eq_true_eq]; omega⟩
  simp only [ha, if_true] at h1
  cases h1

theorem groupParts_wf {κ : Type} [LinearOrder κ] {t u : Tri K} {ax : Axis} {keys : List κ}
    (h : t.groupParts ax keys = .ok u) : WF u ∧ u.values.dim ax = (groupKeys keys).length := by
  obtain ⟨parts, hp, h⟩ := bind_ok h
  have hparts : ∀ p ∈ parts, WF p ∧ p.axisLen ax = 1 := by
    intro p hpp
    obtain ⟨g, -, hg⟩ := Dev.mapM_mem _ hp p hpp
    obtain ⟨v, hv, hg⟩ := bind_ok hg
    simp only [pure, Except.pure] at hg
    injection hg with hg
    subst hg
    obtain ⟨wv, -, ps, hps, hl⟩ := ilocAx_dims hv
    obtain ⟨e, ne⟩ := hps.nonneg (by
      intro x hx
      obtain ⟨i, -, rfl⟩ := List.mem_map.1 hx
      omega)
    have hne : v.axisLen ax ≠ 0 := by
      rw [← wf_iff.1 wv ax, hl, e]
      simpa using ne
    have w := sumKeep_wf wv hne
    refine ⟨w, ?_⟩
    rw [← wf_iff.1 w ax]
    cases ax <;> rfl
  obtain ⟨w, hd⟩ := concatIgnore_dims (fun p hp => (hparts p hp).1) (fun p hp => (hparts p hp).2) h
  refine ⟨w, ?_⟩
  rw [hd, Nat.mul_one, mapM_length hp]

theorem groupbyIndexSum_wf {t u : Tri K} {labels : List String} {rows : List (List String)}
    (h : t.groupbyIndexSum labels rows = .ok u) : WF u := by
  obtain ⟨v, hv, h⟩ := bind_ok h
  injection h with h
  subst h
  obtain ⟨⟨w0, w1, w2, w3⟩, hd⟩ := groupParts_wf hv
  exact ⟨hd, w1, w2, w3⟩

theorem groupbyColumnsSum_wf {t u : Tri K} {by_ : List String}
    (h : t.groupbyColumnsSum by_ = .ok u) : WF u := by
  obtain ⟨v, hv, h⟩ := bind_ok h
  injection h with h
  subst h
  obtain ⟨⟨w0, w1, w2, w3⟩, hd⟩ := groupParts_wf hv
  exact ⟨w0, hd, w2, w3⟩

theorem groupbyOriginSum_wf {t u : Tri K} {by_ : List Int}
    (h : t.groupbyOriginSum by_ = .ok u) : WF u := by
  obtain ⟨v, hv, h⟩ := bind_ok h
  injection h with h
  subst h
  obtain ⟨⟨w0, w1, w2, w3⟩, hd⟩ := groupParts_wf hv
  exact ⟨w0, w1, hd, w3⟩

/-! ## Development and valuation axes -/

theorem valDev_dims {t w : Tri K} {sign : Int} (h : t.valDev sign = .ok w) :
    w = { t with values := w.values } ∧ w.values.d0 = t.values.d0 ∧ w.values.d1 = t.values.d1 ∧
      w.values.d2 = t.values.d2 := by
  unfold valDev at h
  split at h
  · cases h
  split_ifs at h
  dsimp only at h
  split_ifs at h <;> injection h with h <;> subst h <;> exact ⟨rfl, rfl, rfl, rfl⟩

theorem valDev_forward {t w : Tri K} (h : t.valDev 1 = .ok w) :
    w.values.d3 = (Dev.knownValuations t).length := by
  unfold valDev at h
  split at h
  · cases h
  rename_i scale _
  have hn : ¬ ((Dev.knownValuations t).length = 1 ∧ (1 : Int) = -1) := by omega
  have hm : ∀ m, (t.coords.map fun p => (p.2 : Int) + if t.coords.all (fun p => p.1 == 0) = true then
      ((t.values.d2 - 1 : Nat) : Int) * scale else (p.1 : Int) * scale * 1).min? = some m → ¬ m < 0 := by
    intro m hm
    obtain ⟨p, -, e⟩ := List.mem_map.1 (List.min?_mem hm)
    rw [← e]
    split_ifs
    · have : (0 : Int) ≤ ((t.values.d2 - 1 : Nat) : Int) * scale := by positivity
      omega
    · have : (0 : Int) ≤ (p.1 : Int) * scale * 1 := by positivity
      omega
  split at h
  · cases h
  dsimp only at h
  rw [if_neg hn] at h
  revert h hm
  generalize (t.coords.map fun p => (p.2 : Int) + if t.coords.all (fun p => p.1 == 0) = true then
      ((t.values.d2 - 1 : Nat) : Int) * scale else (p.1 : Int) * scale * 1) = xs
  intro hm h
  rw [ite_eq_iff] at h
  rcases h with ⟨-, h⟩ | ⟨-, h⟩
  · cases h
  injection h with h
  subst h
  dsimp only
  split
  · rename_i m x hm' hx
    rw [if_neg (hm m hm')]
  · rfl

theorem knownValuations_congr {t w : Tri K} (h : w = { t with values := w.values }) :
    Dev.knownValuations w = Dev.knownValuations t := by
  rw [h]; rfl

theorem Picks.first {n : Nat} {ps : List Nat} (h : Picks n (.int 0) ps) : ps.length = 1 := by
  have hn : 0 < n := by
    obtain ⟨k', k'', h1, -⟩ := h
    unfold normalizeKey sparseNormalize at h1
    by_contra hz
    have : n = 0 := by omega
    simp [this] at h1
  rw [h.eq (selS_nat n 0 hn)]; rfl

theorem Picks.last {n : Nat} {ps : List Nat} (h : Picks n (.int (-1)) ps) : ps.length = 1 := by
  have hn : 0 < n := by
    obtain ⟨k', k'', h1, -⟩ := h
    unfold normalizeKey sparseNormalize at h1
    by_contra hz
    have : n = 0 := by omega
    simp [this] at h1
  rw [h.eq (selS_last n hn)]; rfl

theorem cumToIncr_ne {t u : Tri K} (hc : t.isCum ≠ some false) (h : t.cumToIncr = .ok u) :
    1 ≤ u.values.d3 := by
  unfold cumToIncr at h
  rw [if_neg hc] at h
  split_ifs at h with h2
  · obtain ⟨a, ha, h⟩ := bind_ok h
    obtain ⟨b, hb, h⟩ := bind_ok h
    obtain ⟨d, hd, h⟩ := bind_ok h
    obtain ⟨l, hl, h⟩ := bind_ok h
    obtain ⟨r, hr, h⟩ := bind_ok h
    injection h with h
    subst h
    obtain ⟨wa, a0, a1, a2, pa, hpa, a3⟩ := ilocD_dims ha
    obtain ⟨wb, b0, b1, b2, pb, hpb, b3⟩ := ilocD_dims hb
    obtain ⟨wl, -, -, -, pl, hpl, l3⟩ := ilocD_dims hl
    have hs : Arr.SameShape a.values b.values :=
      ⟨a0.trans b0.symm, a1.trans b1.symm, a2.trans b2.symm, by rw [a3, b3, from_upto_length hpb hpa]⟩
    have wd := (zipArr_sameShape hs hd).wf wa
    have e := (concat_wf (by simp [wd, wl]) hr).2
    have e1 : l.axisLen .development = 1 := by rw [← wf_iff.1 wl]; exact l3.trans hpl.last
    simp only [List.map_cons, List.map_nil, List.sum_cons, List.sum_nil, e1] at e
    have e' : r.values.d3 = _ := e
    show 1 ≤ r.values.d3
    omega
  · obtain ⟨b, hb, h⟩ := bind_ok h
    obtain ⟨a, ha, h⟩ := bind_ok h
    obtain ⟨d, hd, h⟩ := bind_ok h
    obtain ⟨l, hl, h⟩ := bind_ok h
    obtain ⟨r, hr, h⟩ := bind_ok h
    injection h with h
    subst h
    obtain ⟨wa, a0, a1, a2, pa, hpa, a3⟩ := ilocD_dims ha
    obtain ⟨wb, b0, b1, b2, pb, hpb, b3⟩ := ilocD_dims hb
    obtain ⟨wl, -, -, -, pl, hpl, l3⟩ := ilocD_dims hl
    have hs : Arr.SameShape b.values a.values :=
      ⟨b0.trans a0.symm, b1.trans a1.symm, b2.trans a2.symm, by rw [a3, b3, from_upto_length hpb hpa]⟩
    obtain ⟨e, he, hd⟩ := bind_ok hd
    injection hd with hd
    subst hd
    have wd := ((zipArr_sameShape hs he).trans (cleanup_revalued e)).wf wb
    have e := (concat_wf (by simp [wd, wl]) hr).2
    have e1 : l.axisLen .development = 1 := by rw [← wf_iff.1 wl]; exact l3.trans hpl.first
    simp only [List.map_cons, List.map_nil, List.sum_cons, List.sum_nil, e1] at e
    have e' : r.values.d3 = _ := e
    show 1 ≤ r.values.d3
    omega

theorem from_last_length {n : Nat} {ps : List Nat} (h : Picks n (.from (-1)) ps) (hn : 1 ≤ n) :
    ps.length = 1 := by
  rw [h.eq (selS_from_neg n 1 hn (by decide))]; rfl

theorem forward_wf {t w : Tri K} (wf : WF t) (h : t.valDev 1 = .ok w) :
    WF { w with ddims := Dev.knownValuations w, isVal := true } := by
  obtain ⟨e, e0, e1, e2⟩ := valDev_dims h
  obtain ⟨w0, w1, w2, w3⟩ := wf
  refine ⟨?_, ?_, ?_, ?_⟩
  · show w.values.d0 = w.kdims.length
    rw [e0, w0, e]
  · show w.values.d1 = w.vdims.length
    rw [e1, w1, e]
  · show w.values.d2 = w.odims.length
    rw [e2, w2, e]
  · show w.values.d3 = _
    rw [valDev_forward h, knownValuations_congr e]

theorem isUltimate_ne {t : Tri K} (h : t.isUltimate = true) : 1 ≤ t.ddims.length := by
  by_contra hz
  have : t.ddims.length = 0 := by omega
  unfold isUltimate valuations at h
  rw [this] at h
  simp at h

theorem devToVal_wf {t u : Tri K} (wf : WF t) (h : t.devToVal = .ok u) : WF u := by
  unfold devToVal at h
  by_cases hv : t.isVal = true
  · rw [if_pos hv] at h
    injection h with h; subst h; exact wf
  rw [if_neg hv] at h
  by_cases hf : t.isFull = true
  · rw [if_pos hf] at h
    have hobj : ∃ obj, (if t.isCum = some true then t.cumToIncr else pure t) = .ok obj ∧ WF obj ∧
        (t.isUltimate = true → 1 ≤ obj.values.d3) ∧
        (do
          let obj ← if t.isUltimate then do
              let ult ← obj.ilocD (.from (-1))
              let obj ← obj.ilocD (.upto (-1))
              let w ← obj.valDev 1
              let w : Tri K := { w with ddims := Dev.knownValuations w, isVal := true }
              concat .development [w, { ult with ddims := [ult.valuation 0 0], isVal := true }]
            else do
              let w ← obj.valDev 1
              pure { w with ddims := Dev.knownValuations w, isVal := true }
          pure (if t.isCum = some true then obj.incrToCum else obj)) = Except.ok u := by
      by_cases hc : t.isCum = some true
      · rw [if_pos hc] at h
        obtain ⟨obj, ho, h⟩ := bind_ok h
        exact ⟨obj, by rw [if_pos hc]; exact ho, cumToIncr_wf wf ho,
          fun _ => cumToIncr_ne (by rw [hc]; decide) ho, h⟩
      · rw [if_neg hc] at h
        obtain ⟨obj, ho, h⟩ := bind_ok h
        have e : t = obj := by
          simp only [pure, Except.pure] at ho
          injection ho
        subst e
        exact ⟨t, by rw [if_neg hc]; exact ho, wf,
          fun hu => by rw [wf.2.2.2]; exact isUltimate_ne hu, h⟩
    obtain ⟨obj, -, wo, hne, h⟩ := hobj
    clear hv hf
    by_cases hu : t.isUltimate = true
    · simp only [hu, if_true] at h
      obtain ⟨ult, hult, h⟩ := bind_ok h
      obtain ⟨o', ho', h⟩ := bind_ok h
      obtain ⟨w, hw, h⟩ := bind_ok h
      obtain ⟨r, hr, h⟩ := bind_ok h
      obtain ⟨wu, -, -, -, pu, hpu, u3⟩ := ilocD_dims hult
      obtain ⟨wo', -⟩ := ilocD_dims ho'
      have w1 := forward_wf wo' hw
      have w2 : WF { ult with ddims := [ult.valuation 0 0], isVal := true } :=
        ⟨wu.1, wu.2.1, wu.2.2.1, u3.trans (from_last_length hpu (hne hu))⟩
      have wr := (concat_wf (by
        intro x hx
        rcases List.mem_cons.1 hx with rfl | hx
        · exact w1
        · rw [List.mem_singleton.1 hx]; exact w2) hr).1
      simp only [pure, Except.pure] at h
      injection h with h
      subst h
      split_ifs
      · exact incrToCum_wf wr
      · exact wr
    · simp only [hu, Bool.false_eq_true, if_false] at h
      obtain ⟨w, hw, h⟩ := bind_ok h
      obtain ⟨r, hr, h⟩ := bind_ok h
      have w1 := forward_wf wo hw
      simp only [pure, Except.pure] at h hr
      injection hr with hr
      subst hr
      injection h with h
      subst h
      split_ifs
      · exact incrToCum_wf w1
      · exact w1
  · rw [if_neg hf] at h
    obtain ⟨w, hw, h⟩ := bind_ok h
    injection h with h
    subst h
    exact forward_wf wf hw

theorem valToDev_wf {t u : Tri K} (wf : WF t) (h : t.valToDev = .ok u) : WF u := by
  unfold valToDev at h
  by_cases hv : t.isVal = false
  · rw [if_pos hv] at h
    injection h with h; subst h; exact wf
  rw [if_neg hv] at h
  have key : ∀ src obj : Tri K, WF src → src.valDev (-1) = .ok obj → ∀ f : Nat → Int,
      WF { obj with ddims := (List.range obj.values.d3).map f, isVal := false } := by
    intro src obj ws ho f
    obtain ⟨e, e0, e1, e2⟩ := valDev_dims ho
    obtain ⟨w0, w1, w2, w3⟩ := ws
    refine ⟨?_, ?_, ?_, ?_⟩
    · show obj.values.d0 = obj.kdims.length
      rw [e0, w0, e]
    · show obj.values.d1 = obj.vdims.length
      rw [e1, w1, e]
    · show obj.values.d2 = obj.odims.length
      rw [e2, w2, e]
    · show obj.values.d3 = (List.map _ _).length
      rw [List.length_map, List.length_range]
  dsimp only at h
  by_cases hu : (t.isUltimate && decide (1 < t.values.d3)) = true
  · simp only [hu, if_true] at h
    obtain ⟨src, hs, h⟩ := bind_ok h
    obtain ⟨obj, ho, h⟩ := bind_ok h
    obtain ⟨last, -, h⟩ := bind_ok h
    obtain ⟨o', ho', h⟩ := bind_ok h
    obtain ⟨x, hx, h⟩ := bind_ok h
    obtain ⟨wo', -⟩ := ilocD_dims ho'
    obtain ⟨wx, -, -, -, px, hpx, x3⟩ := ilocD_dims hx
    have hd : 1 < t.values.d3 := by
      rw [Bool.and_eq_true, decide_eq_true_eq] at hu; exact hu.2
    have w2 : WF { x with ddims := [9999], isVal := false } :=
      ⟨wx.1, wx.2.1, wx.2.2.1, x3.trans (from_last_length hpx (by omega))⟩
    exact (concat_wf (by
      intro y hy
      rcases List.mem_cons.1 hy with rfl | hy
      · exact wo'
      · rw [List.mem_singleton.1 hy]; exact w2) h).1
  · simp only [hu, Bool.false_eq_true, if_false] at h
    obtain ⟨src, hs, h⟩ := bind_ok h
    simp only [pure, Except.pure] at hs
    injection hs with hs
    subst hs
    obtain ⟨obj, ho, h'⟩ := bind_ok h
    injection h' with h'
    subst h'
    exact key _ _ wf ho _

theorem coarsenDev_wf {old new : Grain} {t u : Tri K} (wf : WF t) (h : coarsenDev old new t = .ok u) :
    WF u := by
  unfold coarsenDev at h
  by_cases hc : old ≠ new ∧ 1 < t.values.d3
  swap
  · rw [if_neg hc] at h
    injection h with h; subst h; exact wf
  rw [if_pos hc] at h
  split at h
  · cases h
  rename_i step hstep
  have hs : 1 ≤ step := by
    revert hstep
    cases old <;> cases new <;> simp [Dev.valOffset] <;> omega
  dsimp only at h
  split_ifs at h with hcum
  · obtain ⟨o, ho, h⟩ := bind_ok h
    injection h with h
    subst h
    have := (ilocD_dims ho).1
    exact this
  · obtain ⟨g, hg, h⟩ := bind_ok h
    obtain ⟨o, ho, h⟩ := bind_ok h
    simp only [pure, Except.pure] at ho
    injection ho with ho
    subst ho
    injection h with h
    subst h
    obtain ⟨⟨w0, w1, w2, w3⟩, hd⟩ := groupParts_wf (ax := .development) hg
    refine ⟨w0, w1, w2, ?_⟩
    show g.values.dim .development = (List.map _ _).length
    rw [hd, groupKeys_columnGroups (by have := wf.2.2.2; omega) hs, List.length_map]

theorem grainTo_dev_wf {t u : Tri K} {dg : Grain} (wf : WF t) (h : t.grainTo t.ograin dg = .ok u) :
    WF u := by
  unfold grainTo at h
  simp only [ne_eq, not_true_eq_false, if_false, pure, Except.pure, bind, Except.bind] at h
  split at h
  · cases h
  split at h
  · cases h
  split at h
  · cases h
  split at h
  · cases h
  rename_i o ho
  split at h
  · cases h
  rename_i q hq
  have wq := coarsenDev_wf (devToVal_wf wf ho) hq
  split_ifs at h
  · exact devToVal_wf wq h
  · exact valToDev_wf wq h

end Tri
end CL
