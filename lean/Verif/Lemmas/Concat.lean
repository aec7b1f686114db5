import Verif.Model.Concat
import Verif.Lemmas.Tri

set_option linter.unusedSectionVars false

namespace CL
namespace Tri
variable {K : Type} [Field K] [LinearOrder K] [IsStrictOrderedRing K]

private theorem mem_inner (l : List String) (acc : List String) (c : String) :
    c ∈ l.foldl (fun acc c => if acc.contains c then acc else acc ++ [c]) acc ↔
      c ∈ acc ∨ c ∈ l := by
  induction l generalizing acc with
  | nil => simp
  | cons x l ih =>
    simp only [List.foldl_cons, ih]
    by_cases h : acc.contains x
    · simp only [h, if_true]
      simp at h
      constructor
      · rintro (h1 | h1) <;> simp [h1]
      · rintro (h1 | h1)
        · exact Or.inl h1
        · rcases List.mem_cons.1 h1 with rfl | h2
          · exact Or.inl h
          · exact Or.inr h2
    · simp only [h]
      simp [or_assoc]

theorem mem_allColumns (objs : List (Tri K)) (c : String) :
    c ∈ allColumns objs ↔ ∃ t ∈ objs, c ∈ t.vdims := by
  unfold allColumns
  suffices h : ∀ acc : List String, c ∈ objs.foldl (fun acc t => t.vdims.foldl
      (fun acc c => if acc.contains c then acc else acc ++ [c]) acc) acc ↔
      c ∈ acc ∨ ∃ t ∈ objs, c ∈ t.vdims by simpa using h []
  induction objs with
  | nil => simp
  | cons t l ih =>
    intro acc
    simp only [List.foldl_cons, ih, mem_inner]
    simp [or_assoc]

theorem fillColumns_id (t : Tri K) (cols : List String) (h : ∀ c ∈ cols, c ∈ t.vdims) :
    fillColumns cols t = .ok t := by
  unfold fillColumns
  induction cols with
  | nil => rfl
  | cons c l ih =>
    have hc : t.vdims.contains c = true := by simpa using h c (by simp)
    rw [List.foldlM_cons]
    simp only [hc, if_true]
    exact ih fun c' h' => h c' (by simp [h'])

theorem mapM_fill_id (objs : List (Tri K)) (l : List String) (h : ∀ t ∈ objs, t.vdims = l) :
    objs.mapM (fillColumns (allColumns objs)) = .ok objs := by
  have key : ∀ t ∈ objs, fillColumns (allColumns objs) t = .ok t := by
    intro t ht
    apply fillColumns_id
    intro c hc
    obtain ⟨t', h1, h2⟩ := (mem_allColumns objs c).1 hc
    rw [h t ht]; rw [h t' h1] at h2; exact h2
  generalize allColumns objs = cols at key
  clear h
  induction objs with
  | nil => rfl
  | cons t l ih =>
    rw [List.mapM_cons, key t (by simp), ih (fun t' h' => key t' (by simp [h']))]
    rfl

/-- Concatenating two triangles along the development axis. -/
theorem concat_dev {a b : Tri K} (hv : b.vdims = a.vdims) (hk : b.kdims = a.kdims)
    (ho : b.odims = a.odims) (hi : b.isVal = a.isVal) (h0 : a.values.d0 = b.values.d0)
    (h1 : a.values.d1 = b.values.d1) (h2 : a.values.d2 = b.values.d2)
    (hn : (a.ddims ++ b.ddims).Nodup) :
    concat .development [a, b] = .ok { a with
      values := { a.values with
        d3 := a.values.d3 + b.values.d3
        get := fun i c o d =>
          if d < a.values.d3 then a.values.get i c o d else b.values.get i c o (d - a.values.d3) }
      vd := max a.vd b.vd
      ddims := a.ddims ++ b.ddims } := by
  have hf := mapM_fill_id [a, b] a.vdims (by simp [hv])
  simp only [concat, alignColumns, reduceCtorEq, if_false, hf, bind, Except.bind]
  simp only [concatCheck, hk, ho, hi, List.any_cons, List.any_nil]
  simp [hn, Arr.cat2, h0, h1, h2, bind, Except.bind, pure, Except.pure]

/-- Concatenating two triangles along the origin axis. -/
theorem concat_origin {a b : Tri K} (hv : b.vdims = a.vdims) (hk : b.kdims = a.kdims)
    (ho : b.ddims = a.ddims) (hi : b.isVal = a.isVal) (h0 : a.values.d0 = b.values.d0)
    (h1 : a.values.d1 = b.values.d1) (h3 : a.values.d3 = b.values.d3)
    (hn : (a.odims ++ b.odims).Nodup) :
    concat .origin [a, b] = .ok { a with
      values := { a.values with
        d2 := a.values.d2 + b.values.d2
        get := fun i c o d =>
          if o < a.values.d2 then a.values.get i c o d else b.values.get i c (o - a.values.d2) d }
      vd := max a.vd b.vd
      odims := a.odims ++ b.odims } := by
  have hf := mapM_fill_id [a, b] a.vdims (by simp [hv])
  simp only [concat, alignColumns, reduceCtorEq, if_false, hf, bind, Except.bind]
  simp only [concatCheck, hk, ho, hi, List.any_cons, List.any_nil]
  simp [hn, Arr.cat2, h0, h1, h3, bind, Except.bind, pure, Except.pure]

/-- Concatenating two triangles along the index axis. -/
theorem concat_index {a b : Tri K} (hv : b.vdims = a.vdims) (hk : b.odims = a.odims)
    (ho : b.ddims = a.ddims) (hi : b.isVal = a.isVal) (h0 : a.values.d1 = b.values.d1)
    (h1 : a.values.d2 = b.values.d2) (h3 : a.values.d3 = b.values.d3)
    (hn : (a.kdims ++ b.kdims).Nodup) :
    concat .index [a, b] = .ok { a with
      values := { a.values with
        d0 := a.values.d0 + b.values.d0
        get := fun i c o d =>
          if i < a.values.d0 then a.values.get i c o d else b.values.get (i - a.values.d0) c o d }
      vd := max a.vd b.vd
      kdims := a.kdims ++ b.kdims } := by
  have hf := mapM_fill_id [a, b] a.vdims (by simp [hv])
  simp only [concat, alignColumns, reduceCtorEq, if_false, hf, bind, Except.bind]
  simp only [concatCheck, hk, ho, hi, List.any_cons, List.any_nil]
  simp [hn, Arr.cat2, h0, h1, h3, bind, Except.bind, pure, Except.pure]

/-- Concatenating two triangles along the column axis. -/
theorem concat_columns {a b : Tri K} (hv : b.kdims = a.kdims) (hk : b.odims = a.odims)
    (ho : b.ddims = a.ddims) (hi : b.isVal = a.isVal) (h0 : a.values.d0 = b.values.d0)
    (h1 : a.values.d2 = b.values.d2) (h3 : a.values.d3 = b.values.d3)
    (hn : (a.vdims ++ b.vdims).Nodup) :
    concat .columns [a, b] = .ok { a with
      values := { a.values with
        d1 := a.values.d1 + b.values.d1
        get := fun i c o d =>
          if c < a.values.d1 then a.values.get i c o d else b.values.get i (c - a.values.d1) o d }
      vd := max a.vd b.vd
      vdims := a.vdims ++ b.vdims } := by
  simp only [concat, alignColumns, bind, Except.bind, if_true]
  simp only [concatCheck, List.any_cons, List.any_nil]
  simp [hv, hk, ho, hi, hn, Arr.cat2, h0, h1, h3, bind, Except.bind, pure, Except.pure]

end Tri
end CL
