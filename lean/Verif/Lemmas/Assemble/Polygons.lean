import Verif.Lemmas.Assemble.Raw
import Verif.Spec.Shapes

/-! The polygons of the result. -/

namespace Rene.Assemble
open Rene Spec Face

theorem mapM_ok {α β : Type} {f : α → Except Err β} {g : α → β} : ∀ {l : List α}, (∀ x ∈ l, f x = .ok (g x)) →
    l.mapM f = .ok (l.map g)
  | [], _ => rfl
  | x :: l, h => by
    rw [List.mapM_cons, h x (by simp), mapM_ok fun y hy => h y (by simp [hy])]
    rfl

/-- The indices of the holes of a contour. -/
def holesOf (m : ℕ) (parent : ℕ → Option ℕ) (q : ℕ) : List ℕ :=
  (List.range m).filter fun j => decide (parent j = some q)

/-- The polygons made of the contours. -/
def polys (m : ℕ) (internal : ℕ → Bool) (parent : ℕ → Option ℕ) (V : ℕ → List Point) : List Polygon :=
  (List.range m).flatMap fun j => if internal j then [] else [⟨⟨V j⟩, (holesOf m parent j).map fun i => ⟨V i⟩⟩]

/-- How contours are grouped. -/
def Grouped (m : ℕ) (internal : ℕ → Bool) (parent : ℕ → Option ℕ) : Prop :=
  ∀ j < m, (internal j = true → ∃ q < j, parent j = some q ∧ internal q = false) ∧ (internal j = false → parent j = none)

theorem mem_holesOf {m : ℕ} {parent : ℕ → Option ℕ} {q j : ℕ} : j ∈ holesOf m parent q ↔ j < m ∧ parent j = some q := by
  unfold holesOf
  rw [List.mem_filter, List.mem_range, decide_eq_true_iff]

theorem holesOf_internal {m : ℕ} {internal : ℕ → Bool} {parent : ℕ → Option ℕ} (h : Grouped m internal parent) {q : ℕ}
    (hq : internal q = true) : holesOf m parent q = [] := by
  rw [List.eq_nil_iff_forall_not_mem]
  intro j hj
  obtain ⟨h1, h2⟩ := mem_holesOf.mp hj
  cases hi : internal j with
  | true =>
    obtain ⟨q', _, e, k⟩ := (h j h1).1 hi
    rw [e, Option.some.injEq] at h2
    rw [h2, hq] at k
    cases k
  | false => rw [(h j h1).2 hi] at h2; cases h2

theorem polygons_spec {a : Shp.Asm} {m : ℕ} (hm : a.vertices.length = m)
    (hV : ∀ j < m, 3 ≤ (a.vertices.getD j []).length)
    (hg : Grouped m (fun j => a.internal.getD j false) (fun j => a.parents.getD j none))
    (hh : ∀ q < m, a.holes.getD q [] = holesOf m (fun j => a.parents.getD j none) q) :
    a.polygons = .ok (polys m (fun j => a.internal.getD j false) (fun j => a.parents.getD j none)
      (fun j => a.vertices.getD j [])) := by
  have hn : ∀ j < m, Contour.new (a.vertices.getD j []) = .ok ⟨a.vertices.getD j []⟩ := fun j hj => by
    unfold Contour.new
    rw [if_neg (by have := hV j hj; omega)]
  have hp : ∀ j < m, a.polygon j = .ok ⟨⟨a.vertices.getD j []⟩,
      (holesOf m (fun j => a.parents.getD j none) j).map fun i => ⟨a.vertices.getD i []⟩⟩ := by
    intro j hj
    unfold Shp.Asm.polygon
    rw [hn j hj, hh j hj, mapM_ok (g := fun i => ⟨a.vertices.getD i []⟩) fun i hi => hn i (mem_holesOf.mp hi).1]
    rfl
  unfold Shp.Asm.polygons
  rw [hm, mapM_ok (g := fun j => if a.internal.getD j false then [] else
    [(⟨⟨a.vertices.getD j []⟩, (holesOf m (fun j => a.parents.getD j none) j).map fun i => ⟨a.vertices.getD i []⟩⟩ : Polygon)])]
  · rfl
  · intro j hj
    rw [List.mem_range] at hj
    cases hi : a.internal.getD j false with
    | true =>
      simp only [if_true]
      rw [hh j hj, holesOf_internal hg hi]
      rfl
    | false =>
      simp only [Bool.false_eq_true, if_false]
      rw [hp j hj]
      rfl

/-- The indices of the contours, polygon by polygon. -/
def order (m : ℕ) (internal : ℕ → Bool) (parent : ℕ → Option ℕ) : List ℕ :=
  (List.range m).flatMap fun j => if internal j then [] else j :: holesOf m parent j

theorem order_perm {m : ℕ} {internal : ℕ → Bool} {parent : ℕ → Option ℕ} (h : Grouped m internal parent) :
    (order m internal parent).Perm (List.range m) := by
  have mem : ∀ {i j : ℕ}, (i ∈ if internal j then [] else j :: holesOf m parent j) ↔
      internal j = false ∧ (i = j ∨ i < m ∧ parent i = some j) := by
    intro i j
    cases hj : internal j with
    | true => simp
    | false => simp [mem_holesOf]
  refine (List.perm_ext_iff_of_nodup ?_ List.nodup_range).mpr fun i => ?_
  · unfold order
    rw [List.nodup_flatMap]
    refine ⟨fun j hj => ?_, ?_⟩
    · rw [List.mem_range] at hj
      cases hi : internal j with
      | true => simp
      | false =>
        simp only [Bool.false_eq_true, if_false]
        rw [List.nodup_cons]
        refine ⟨fun k => ?_, List.nodup_range.filter _⟩
        rw [mem_holesOf, (h j hj).2 hi] at k
        cases k.2
    · refine List.Pairwise.imp_of_mem ?_ List.nodup_range
      intro j j' hj hj' hne
      rw [List.mem_range] at hj hj'
      show List.Disjoint _ _
      intro i k1 k2
      obtain ⟨a1, a2⟩ := mem.mp k1
      obtain ⟨b1, b2⟩ := mem.mp k2
      rcases a2 with rfl | ⟨a2, a3⟩ <;> rcases b2 with b2 | ⟨b2, b3⟩
      · exact hne b2
      · rw [(h i hj).2 a1] at b3; cases b3
      · subst b2
        rw [(h i hj').2 b1] at a3; cases a3
      · rw [a3, Option.some.injEq] at b3; exact hne b3
  · unfold order
    rw [List.mem_flatMap, List.mem_range]
    constructor
    · rintro ⟨j, hj, k⟩
      rw [List.mem_range] at hj
      rcases (mem.mp k).2 with rfl | k
      · exact hj
      · exact k.1
    · intro hi
      cases hb : internal i with
      | false => exact ⟨i, List.mem_range.mpr hi, mem.mpr ⟨hb, Or.inl rfl⟩⟩
      | true =>
        obtain ⟨q, q1, q2, q3⟩ := (h i hi).1 hb
        exact ⟨q, List.mem_range.mpr (lt_trans q1 hi), mem.mpr ⟨q3, Or.inr ⟨hi, q2⟩⟩⟩

theorem polys_contours (m : ℕ) (internal : ℕ → Bool) (parent : ℕ → Option ℕ) (V : ℕ → List Point) :
    (polys m internal parent V).flatMap polygonContours = (order m internal parent).map fun i => ⟨V i⟩ := by
  unfold polys order
  rw [List.flatMap_assoc, List.map_flatMap]
  congr 1
  funext j
  cases internal j with
  | true => rfl
  | false => simp [polygonContours]

/-- The contours of the polygons are the found ones. -/
theorem polys_perm {m : ℕ} {internal : ℕ → Bool} {parent : ℕ → Option ℕ} (h : Grouped m internal parent) (V : ℕ → List Point) :
    ((polys m internal parent V).flatMap polygonContours).Perm ((List.range m).map fun i => ⟨V i⟩) := by
  rw [polys_contours]
  exact (order_perm h).map _

end Rene.Assemble
