import Verif.Lemmas.Seidel.RepPoly
import Verif.Lemmas.Sweep.ShapeEdges

/-! The flags of the edges of polygons. -/

namespace Rene.Seidel
open Rene Spec Sweep

/-- The edge stands for the segment, with the flag of the contour `b`, or the wrong one for the closing edge. -/
def RepF (endpoints : List Point) (b : Bool) (last : Point) (e : Edge) (s : Segment) : Prop :=
  Rep endpoints e s ∧ e.interiorToLeft = ((goesUp s == b) ^^ decide (s.start = last))

theorem goesUp_lt {u v : Point} (h : u < v) : goesUp ⟨u, v⟩ = true := (goesUp_iff (by exact h.ne)).mpr h

theorem goesUp_gt {u v : Point} (h : v < u) : goesUp ⟨u, v⟩ = false := by
  rw [← Bool.not_eq_true, goesUp_iff (by exact h.ne')]; exact lt_asymm h

theorem repF_of {endpoints : List Point} {b : Bool} {i j : ℕ} {u v last : Point} (hi : i < endpoints.length)
    (hj : j < endpoints.length) (pi : pt endpoints i = u) (pj : pt endpoints j = v) (h : u ≠ v) (hl : u ≠ last) :
    RepF endpoints b last (if u.ltB v then ⟨b, i, j⟩ else ⟨!b, j, i⟩) ⟨u, v⟩ := by
  refine ⟨rep_of hi hj pi pj h, ?_⟩
  have : decide ((⟨u, v⟩ : Segment).start = last) = false := decide_eq_false hl
  rw [this]
  by_cases hc : u.ltB v = true
  · rw [if_pos hc, goesUp_lt (Point.ltB_iff.mp hc)]; simp
  · rw [if_neg hc]
    rw [Point.ltB_iff] at hc
    rw [goesUp_gt (lt_of_le_of_ne (not_lt.mp hc) h.symm)]; simp

theorem repF_close {endpoints : List Point} {b : Bool} {i j : ℕ} {u v : Point} (hi : i < endpoints.length)
    (hj : j < endpoints.length) (pi : pt endpoints i = u) (pj : pt endpoints j = v) (h : u ≠ v) :
    RepF endpoints b v (if u.ltB v then ⟨b, i, j⟩ else ⟨!b, j, i⟩) ⟨v, u⟩ := by
  refine ⟨(rep_of hi hj pi pj h).flip, ?_⟩
  by_cases hc : u.ltB v = true
  · rw [if_pos hc, goesUp_gt (Point.ltB_iff.mp hc)]; simp
  · rw [if_neg hc]
    rw [Point.ltB_iff] at hc
    rw [goesUp_lt (lt_of_le_of_ne (not_lt.mp hc) h.symm)]; simp

theorem repF_consecutive {endpoints : List Point} {b : Bool} {last : Point} : ∀ {vs : List Point} {k : ℕ},
    Block endpoints k vs → (∀ s ∈ consecutive vs, s.start ≠ s.end) → (∀ s ∈ consecutive vs, s.start ≠ last) →
    List.Forall₂ (RepF endpoints b last) (contourEdgesFrom b k vs) (consecutive vs)
  | [], k, _, _, _ => by simp [contourEdgesFrom, consecutive]
  | [v], k, _, _, _ => by simp [contourEdgesFrom, consecutive]
  | u :: v :: rest, k, h, hn, hl => by
    unfold contourEdgesFrom consecutive
    refine List.Forall₂.cons ?_ (repF_consecutive h.tail
      (fun s hs => hn s (by unfold consecutive; exact List.mem_cons_of_mem _ hs))
      (fun s hs => hl s (by unfold consecutive; exact List.mem_cons_of_mem _ hs)))
    have h0 := h 0 (by simp)
    have h1 := h 1 (by simp)
    exact repF_of h0.1 h1.1 h0.2 h1.2 (hn ⟨u, v⟩ (by unfold consecutive; exact List.mem_cons_self))
      (hl ⟨u, v⟩ (by unfold consecutive; exact List.mem_cons_self))

theorem consecutive_start : ∀ {vs : List Point} {s : Segment}, s ∈ consecutive vs → s.start ∈ vs.dropLast
  | [], s, h => by simp [consecutive] at h
  | [v], s, h => by simp [consecutive] at h
  | u :: v :: rest, s, h => by
    unfold consecutive at h
    rw [List.dropLast_cons_of_ne_nil (by simp)]
    rcases List.mem_cons.mp h with rfl | h
    · exact List.mem_cons_self
    · exact List.mem_cons_of_mem _ (consecutive_start h)

/-- The last vertex. -/
def lastOf (c : Contour) : Point := c.vertices.getLastD ⟨0, 0⟩

theorem consecutive_not_last {vs : List Point} (hv : vs ≠ []) (hd : vs.Nodup) {s : Segment} (h : s ∈ consecutive vs) :
    s.start ≠ vs.getLast hv := by
  intro w
  have := consecutive_start h
  rw [← List.dropLast_append_getLast hv, List.nodup_append] at hd
  exact hd.2.2 _ this _ (List.mem_singleton.mpr rfl) w

theorem repF_contour {endpoints : List Point} {c : Contour} {o : Orientation} {k : ℕ} (h : Block endpoints k c.vertices)
    (hv : c.vertices ≠ []) (hd : c.vertices.Nodup) (hn : ∀ s ∈ c.segments, s.start ≠ s.end) :
    List.Forall₂ (RepF endpoints (decide (toContourOrientation c.vertices (toArgMin c.vertices) = o)) (lastOf c))
      (contourEdges c o k) c.segments := by
  obtain ⟨vs⟩ := c
  cases vs with
  | nil => exact absurd rfl hv
  | cons v vs =>
    have hlast : (v :: vs).getLastD ⟨0, 0⟩ = (v :: vs).getLast (by simp) := by
      rw [List.getLastD_eq_getLast?, List.getLast?_eq_some_getLast (by simp)]; rfl
    unfold contourEdges lastOf
    unfold Contour.segments toContourSegments at *
    simp only at *
    refine List.rel_append (repF_consecutive h (fun s hs => hn s (List.mem_append_left _ hs)) ?_) ?_
    · intro s hs
      rw [hlast]; exact consecutive_not_last _ hd hs
    refine List.Forall₂.cons ?_ List.Forall₂.nil
    have h0 := h 0 (by simp)
    have h1 := h vs.length (by simp)
    have hne := hn ⟨(v :: vs).getLast (by simp), v⟩ (List.mem_append_right _ (by simp))
    have e : k + (v :: vs).length - 1 = k + vs.length := by simp only [List.length_cons]; omega
    rw [e, hlast]
    simp only [List.headD_cons]
    refine repF_close (by simpa using h0.1) h1.1 (by simpa using h0.2) ?_ (fun q => hne q.symm)
    rw [h1.2, List.getLast_eq_getElem]
    simp

theorem goesUp_reverse {s : Segment} (h : s.start ≠ s.end) : goesUp s.reverse = !goesUp s := by
  obtain ⟨u, v⟩ := s
  rcases lt_trichotomy u v with w | w | w
  · rw [goesUp_lt w]; exact goesUp_gt w
  · exact absurd w h
  · rw [goesUp_gt w]; exact goesUp_lt w

theorem mem_oriented {c : Contour} {t : Orientation} (hs : SimpleContour c) {s : Segment} (h : s ∈ c.segments) :
    (if toContourOrientation c.vertices (toArgMin c.vertices) = t then s else s.reverse) ∈ toOrientedSegments c.vertices t := by
  unfold toOrientedSegments
  by_cases hc : toContourOrientation c.vertices (toArgMin c.vertices) = t
  · rw [if_pos hc, if_pos hc]; exact h
  · rw [if_neg hc, if_neg hc]
    have hrot := rotateSequence_rot c.vertices
    have hp : (toContourSegments (rotateSequence c.vertices)).Perm ((toContourSegments c.vertices).map Segment.reverse) :=
      (toContourSegments_rotated hrot).trans (toContourSegments_reverse c.vertices)
    exact hp.mem_iff.mpr (List.mem_map_of_mem h)

/-- The end points of the edge from the last vertex to the first one. -/
def Closes (c : Contour) (u v : Point) : Prop :=
  (u = lastOf c ∧ v = c.vertices.headD ⟨0, 0⟩) ∨ (v = lastOf c ∧ u = c.vertices.headD ⟨0, 0⟩)

/-- What is known of an edge: the oriented segment of a contour for which it stands. -/
structure Stands (endpoints : List Point) (c : Contour) (t : Orientation) (e : Edge) (s : Segment) (cl : Bool) : Prop where
  so : s ∈ toOrientedSegments c.vertices t
  lo : pt endpoints e.left = lo s
  hi : pt endpoints e.right = hi s
  flag : e.interiorToLeft = (goesUp s ^^ cl)
  close : cl = true → Closes c s.start s.end
  closed : Closes c s.start s.end → cl = true

theorem forall₂_mem {α β : Type} {R : α → β → Prop} {l : List α} {m : List β} (h : List.Forall₂ R l m) {a : α} (ha : a ∈ l) :
    ∃ b ∈ m, R a b := by
  obtain ⟨hlen, hget⟩ := List.forall₂_iff_get.mp h
  obtain ⟨i, hi, rfl⟩ := List.mem_iff_getElem.mp ha
  exact ⟨m[i]'(hlen ▸ hi), List.getElem_mem _, hget i hi (hlen ▸ hi)⟩

theorem closing_of_last {c : Contour} (hv : c.vertices ≠ []) (hd : c.vertices.Nodup) {s : Segment} (h : s ∈ c.segments)
    (hl : s.start = lastOf c) : s.end = c.vertices.headD ⟨0, 0⟩ := by
  obtain ⟨vs⟩ := c
  cases vs with
  | nil => exact absurd rfl hv
  | cons v vs =>
    unfold Contour.segments toContourSegments at h
    unfold lastOf at hl
    simp only at *
    have hlast : (v :: vs).getLastD ⟨0, 0⟩ = (v :: vs).getLast (by simp) := by
      rw [List.getLastD_eq_getLast?, List.getLast?_eq_some_getLast (by simp)]; rfl
    rcases List.mem_append.mp h with k | k
    · rw [hlast] at hl
      exact absurd hl (consecutive_not_last (by simp) hd k)
    · rw [List.mem_singleton] at k
      rw [k]; rfl

theorem closing_start {c : Contour} (hl : 3 ≤ c.vertices.length) (hd : c.vertices.Nodup) {s : Segment} (h : s ∈ c.segments)
    (h1 : s.end = lastOf c) (h2 : s.start = c.vertices.headD ⟨0, 0⟩) : s.start = lastOf c := by
  obtain ⟨vs⟩ := c
  match vs, hl with
  | v :: a :: b :: rest, _ =>
    unfold Contour.segments toContourSegments at h
    unfold lastOf at *
    simp only [List.headD_cons] at *
    have hlast : (v :: a :: b :: rest).getLastD ⟨0, 0⟩ = (b :: rest).getLast (by simp) := by
      rw [List.getLastD_eq_getLast?, List.getLast?_eq_some_getLast (by simp)]; simp
    have hb : (b :: rest).getLast (by simp) ∈ b :: rest := List.getLast_mem _
    rw [hlast] at *
    rcases List.mem_append.mp h with k | k
    · exfalso
      unfold consecutive at k
      rcases List.mem_cons.mp k with rfl | k
      · simp only at h1
        rw [List.nodup_cons, List.nodup_cons] at hd
        exact hd.2.1 (h1 ▸ hb)
      · have := List.dropLast_subset _ (consecutive_start k)
        rw [h2] at this
        exact (List.nodup_cons.mp hd).1 this
    · rw [List.mem_singleton] at k
      rw [k]; simp

theorem closes_start {c : Contour} (hs : SimpleContour c) {s : Segment} (h : s ∈ c.segments)
    (hc : Closes c s.start s.end) : s.start = lastOf c := by
  rcases hc with w | w
  · exact w.1
  · exact closing_start hs.1 hs.2.1 h w.1 w.2

theorem stands_contour {endpoints : List Point} {c : Contour} {t : Orientation} {k : ℕ} (h : Block endpoints k c.vertices)
    (hs : SimpleContour c) {e : Edge} (he : e ∈ contourEdges c t k) : ∃ s cl, Stands endpoints c t e s cl := by
  have hv : c.vertices ≠ [] := by
    intro w; have := hs.1; rw [w] at this; simp at this
  obtain ⟨s, hm, hr, hf⟩ := forall₂_mem (repF_contour (o := t) h hv hs.2.1 hs.2.2.1) he
  have hne := hs.2.2.1 s hm
  have ho := mem_oriented (t := t) hs hm
  have hcl := closing_of_last hv hs.2.1 hm
  by_cases hc : toContourOrientation c.vertices (toArgMin c.vertices) = t
  · rw [if_pos hc] at ho
    rw [decide_eq_true hc] at hf
    have hl := hr.lt
    refine ⟨s, decide (s.start = lastOf c), ho, ?_, ?_, by rw [hf]; simp, fun w => Or.inl ⟨of_decide_eq_true w, hcl (of_decide_eq_true w)⟩,
      fun w => decide_eq_true (closes_start hs hm w)⟩
    all_goals
      rcases lo_hi s with ⟨e1, e2, e3⟩ | ⟨e1, e2, e3⟩ <;> rcases hr.ends with ⟨a, b⟩ | ⟨a, b⟩ <;>
        simp only [e1, e2, a, b] at * <;> first | rfl | exact absurd hl (lt_asymm e3) | exact absurd hl e3
  · rw [if_neg hc] at ho
    rw [decide_eq_false hc] at hf
    have hl := hr.lt
    refine ⟨s.reverse, decide (s.start = lastOf c), ho, ?_, ?_, by rw [hf, goesUp_reverse hne]; simp,
      fun w => Or.inr ⟨of_decide_eq_true w, hcl (of_decide_eq_true w)⟩,
      fun w => decide_eq_true (closes_start hs hm (by
        rcases w with ⟨a, b⟩ | ⟨a, b⟩
        · exact Or.inr ⟨a, b⟩
        · exact Or.inl ⟨a, b⟩))⟩
    all_goals first | rw [(lo_hi_reverse s).1] | rw [(lo_hi_reverse s).2]
    all_goals
      rcases lo_hi s with ⟨e1, e2, e3⟩ | ⟨e1, e2, e3⟩ <;> rcases hr.ends with ⟨a, b⟩ | ⟨a, b⟩ <;>
        simp only [e1, e2, a, b] at * <;> first | rfl | exact absurd hl (lt_asymm e3) | exact absurd hl e3

theorem mem_holesEdges : ∀ {holes : List Contour} {pre : List Point} {e : Edge}, e ∈ holesEdges pre.length holes →
    ∃ c ∈ holes, ∃ k, Block (pre ++ holes.flatMap Contour.vertices) k c.vertices ∧ e ∈ contourEdges c .clockwise k
  | [], pre, e, h => by simp [holesEdges] at h
  | c :: holes, pre, e, h => by
    unfold holesEdges at h
    rw [List.flatMap_cons]
    rcases List.mem_append.mp h with k | k
    · exact ⟨c, List.mem_cons_self, _, block_mid _ _ _, k⟩
    · rw [← List.length_append] at k
      obtain ⟨d, hd, k', h1, h2⟩ := mem_holesEdges k
      rw [List.append_assoc] at h1
      exact ⟨d, List.mem_cons_of_mem _ hd, k', h1, h2⟩

/-- A contour with the orientation it has to have in a polygon. -/
def Role (p : Polygon) (c : Contour) (t : Orientation) : Prop :=
  (c = p.border ∧ t = .counterclockwise) ∨ (c ∈ p.holes ∧ t = .clockwise)

theorem Role.mem {p : Polygon} {c : Contour} {t : Orientation} (h : Role p c t) : c ∈ polygonContours p := by
  unfold polygonContours
  rcases h with ⟨rfl, _⟩ | ⟨h, _⟩
  · exact List.mem_cons_self
  · exact List.mem_cons_of_mem _ h

theorem Role.ne {p : Polygon} {c : Contour} {t : Orientation} (h : Role p c t) : t ≠ .collinear := by
  rcases h with ⟨_, rfl⟩ | ⟨_, rfl⟩ <;> decide

theorem Role.sub {p : Polygon} {c : Contour} {t : Orientation} (h : Role p c t) {s : Segment}
    (hs : s ∈ toOrientedSegments c.vertices t) : s ∈ p.correctlyOrientedSegments := by
  unfold Polygon.correctlyOrientedSegments
  rcases h with ⟨rfl, rfl⟩ | ⟨h, rfl⟩
  · exact List.mem_append_left _ hs
  · exact List.mem_append_right _ (List.mem_flatMap.mpr ⟨c, h, hs⟩)

theorem stands_polygon {p : Polygon} (h : ValidPolygon p) {e : Edge}
    (he : e ∈ contourEdges p.border .counterclockwise 0 ++ holesEdges p.border.vertices.length p.holes) :
    ∃ c t s cl, Role p c t ∧ Stands (p.border.vertices ++ p.holes.flatMap Contour.vertices) c t e s cl := by
  rcases List.mem_append.mp he with k | k
  · have hr : Role p p.border .counterclockwise := Or.inl ⟨rfl, rfl⟩
    obtain ⟨s, cl, w⟩ := stands_contour (block_mid [] _ _) (h.1 _ hr.mem) k
    exact ⟨_, _, s, cl, hr, w⟩
  · obtain ⟨c, hc, k', h1, h2⟩ := mem_holesEdges k
    have hr : Role p c .clockwise := Or.inr ⟨hc, rfl⟩
    obtain ⟨s, cl, w⟩ := stands_contour h1 (h.1 _ hr.mem) h2
    exact ⟨_, _, s, cl, hr, w⟩

theorem pairwise_or {α : Type} {R : α → α → Prop} {l : List α} (h : l.Pairwise R) {x y : α} (hx : x ∈ l) (hy : y ∈ l)
    (hne : x ≠ y) : R x y ∨ R y x := by
  obtain ⟨A, B, rfl⟩ := List.append_of_mem hx
  refine pairwise_split h ?_
  rcases List.mem_append.mp hy with k | k
  · exact List.mem_append_left _ k
  · rcases List.mem_cons.mp k with k | k
    · exact absurd k.symm hne
    · exact List.mem_append_right _ k

/-- A segment of only one contour. -/
theorem Role.unique {p : Polygon} (hn : p.correctlyOrientedSegments.Nodup) {c c' : Contour} {t t' : Orientation}
    (h : Role p c t) (h' : Role p c' t') {s : Segment} (hs : s ∈ toOrientedSegments c.vertices t)
    (hs' : s ∈ toOrientedSegments c'.vertices t') : c = c' := by
  unfold Polygon.correctlyOrientedSegments at hn
  rw [List.nodup_append] at hn
  obtain ⟨_, n2, n3⟩ := hn
  rcases h with ⟨rfl, rfl⟩ | ⟨h, rfl⟩ <;> rcases h' with ⟨rfl, rfl⟩ | ⟨h', rfl⟩
  · rfl
  · exact absurd rfl (n3 s hs s (List.mem_flatMap.mpr ⟨c', h', hs'⟩))
  · exact absurd rfl (n3 s hs' s (List.mem_flatMap.mpr ⟨c, h, hs⟩))
  · by_contra hne
    rw [List.nodup_flatMap] at n2
    rcases pairwise_or n2.2 h h' hne with k | k
    · exact k hs hs'
    · exact k hs' hs

end Rene.Seidel
