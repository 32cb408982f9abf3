import Verif.Lemmas.Seidel.Locate
import Mathlib.Data.List.Forall2

/-! Edges which represent given segments. -/

namespace Rene.Seidel
open Rene Spec Sweep

/-- The edge represents the segment. -/
structure Rep (endpoints : List Point) (e : Edge) (s : Segment) : Prop where
  l : e.left < endpoints.length
  r : e.right < endpoints.length
  lt : pt endpoints e.left < pt endpoints e.right
  ends : (pt endpoints e.left = s.start ∧ pt endpoints e.right = s.end) ∨
    (pt endpoints e.left = s.end ∧ pt endpoints e.right = s.start)

theorem Rep.seg {endpoints : List Point} {e : Edge} {s : Segment} (h : Rep endpoints e s) :
    Spec.seg (pt endpoints e.left) (pt endpoints e.right) = segPts s := by
  unfold segPts
  rcases h.ends with ⟨a, b⟩ | ⟨a, b⟩ <;> rw [a, b]
  exact seg_comm _ _

theorem Rep.isEnd {endpoints : List Point} {e : Edge} {s : Segment} (h : Rep endpoints e s) {q : Point}
    (hq : q = s.start ∨ q = s.end) : q = pt endpoints e.left ∨ q = pt endpoints e.right := by
  rcases h.ends with ⟨a, b⟩ | ⟨a, b⟩ <;> rw [a, b]
  · exact hq
  · exact hq.symm

/-- Edges with common end points only. -/
def ApE (endpoints : List Point) (a b : Edge) : Prop := ∀ q, q ∈ seg (pt endpoints a.left) (pt endpoints a.right) →
  q ∈ seg (pt endpoints b.left) (pt endpoints b.right) →
  (q = pt endpoints a.left ∨ q = pt endpoints a.right) ∧ (q = pt endpoints b.left ∨ q = pt endpoints b.right)

theorem edgeAt_eq {edges : List Edge} {i : ℕ} (h : i < edges.length) : edgeAt edges i = edges[i] := by
  unfold edgeAt; rw [List.getD_eq_getElem _ _ h]

theorem edgeAt_mem {edges : List Edge} {i : ℕ} (h : i < edges.length) : edgeAt edges i ∈ edges := by
  rw [edgeAt_eq h]; exact List.getElem_mem h

theorem edgesOk_of_rep {box : Box} {edges es : List Edge} {endpoints : List Point} {segs : List Segment}
    (hF : List.Forall₂ (Rep endpoints) edges segs) (hn : FullyNoded segs) (hne : segs ≠ [])
    (own : ∀ i < endpoints.length, ∃ e ∈ edges, i = e.left ∨ i = e.right)
    (hb : ∀ p ∈ endpoints, p ∈ boxPts box) (hp : es.Perm edges) : EdgesOk box es endpoints := by
  obtain ⟨hlen, hget⟩ := List.forall₂_iff_get.mp hF
  have hrep : ∀ e ∈ edges, ∃ s ∈ segs, Rep endpoints e s := by
    intro e he
    obtain ⟨i, hi, rfl⟩ := List.mem_iff_getElem.mp he
    exact ⟨segs[i]'(hlen ▸ hi), List.getElem_mem _, hget i hi (hlen ▸ hi)⟩
  have hrep' : ∀ i < es.length, ∃ s ∈ segs, Rep endpoints (edgeAt es i) s := fun i hi =>
    hrep _ (hp.mem_iff.mp (edgeAt_mem hi))
  have hpw : edges.Pairwise (ApE endpoints) := by
    rw [List.pairwise_iff_getElem]
    intro i j hi hj hij
    have hN := List.pairwise_iff_getElem.mp hn.2 i j (hlen ▸ hi) (hlen ▸ hj) hij
    have ri := hget i hi (hlen ▸ hi)
    have rj := hget j hj (hlen ▸ hj)
    simp only [List.get_eq_getElem] at ri rj
    intro q q1 q2
    rw [ri.seg] at q1
    rw [rj.seg] at q2
    obtain ⟨a, b⟩ := hN.2 q q1 q2
    exact ⟨ri.isEnd a, rj.isEnd b⟩
  have hsym : ∀ {a b : Edge}, ApE endpoints a b → ApE endpoints b a := fun h q q1 q2 => (h q q2 q1).symm
  have hpw' : es.Pairwise (ApE endpoints) := (hp.pairwise_iff hsym).mpr hpw
  exact
    { ne := by
        intro q
        rw [q] at hp
        have := hp.length_eq
        rw [hlen] at this
        exact hne (List.length_eq_zero_iff.mp this.symm)
      lft := fun i hi => by obtain ⟨s, -, r⟩ := hrep' i hi; exact r.l
      rgt := fun i hi => by obtain ⟨s, -, r⟩ := hrep' i hi; exact r.r
      lt := fun i hi => by obtain ⟨s, -, r⟩ := hrep' i hi; exact r.lt
      apart := fun i hi j hj hij q q1 q2 => by
        rw [edgeAt_eq hi] at q1 ⊢
        rw [edgeAt_eq hj] at q2
        rcases Nat.lt_or_gt_of_ne hij with w | w
        · exact (List.pairwise_iff_getElem.mp hpw' i j hi hj w q q1 q2).1
        · exact (List.pairwise_iff_getElem.mp hpw' j i hj hi w q q2 q1).2
      own := fun i hi => by
        obtain ⟨e, he, w⟩ := own i hi
        obtain ⟨j, hj, rfl⟩ := List.mem_iff_getElem.mp (hp.mem_iff.mpr he)
        exact ⟨j, hj, by rw [edgeAt_eq hj]; exact w⟩
      box := fun i hi => hb _ (pt_mem hi) }

/-- Points of the edges are those of the segments. -/
theorem mem_edges {edges es : List Edge} {endpoints : List Point} {segs : List Segment}
    (hF : List.Forall₂ (Rep endpoints) edges segs) (hp : es.Perm edges) (q : Point) :
    (∃ e < es.length, q ∈ seg (pt endpoints (edgeAt es e).left) (pt endpoints (edgeAt es e).right)) ↔ q ∈ segsPts segs := by
  obtain ⟨hlen, hget⟩ := List.forall₂_iff_get.mp hF
  constructor
  · rintro ⟨i, hi, hm⟩
    obtain ⟨j, hj, w⟩ := List.mem_iff_getElem.mp (hp.mem_iff.mp (edgeAt_mem hi))
    have r := hget j hj (hlen ▸ hj)
    simp only [List.get_eq_getElem] at r
    rw [← w, r.seg] at hm
    exact ⟨_, List.getElem_mem _, hm⟩
  · rintro ⟨s, hs, hm⟩
    obtain ⟨j, hj, rfl⟩ := List.mem_iff_getElem.mp hs
    have hj' : j < edges.length := hlen ▸ hj
    have r := hget j hj' hj
    simp only [List.get_eq_getElem] at r
    obtain ⟨i, hi, w⟩ := List.mem_iff_getElem.mp (hp.mem_iff.mpr (List.getElem_mem hj'))
    refine ⟨i, hi, ?_⟩
    rw [edgeAt_eq hi, w, r.seg]; exact hm

/-! ### Multisegments -/

theorem pt_segments (l : List Segment) : ∀ i (hi : i < l.length),
    pt (l.flatMap fun s => [s.start, s.«end»]) (2 * i) = l[i].start ∧
    pt (l.flatMap fun s => [s.start, s.«end»]) (2 * i + 1) = l[i].end := by
  induction l with
  | nil => intro i hi; simp at hi
  | cons s l ih =>
    intro i hi
    cases i with
    | zero => exact ⟨rfl, rfl⟩
    | succ i =>
      obtain ⟨k1, k2⟩ := ih i (by simpa using hi)
      have e1 : 2 * (i + 1) = 2 * i + 1 + 1 := by ring
      unfold pt at *
      rw [e1]
      exact ⟨k1, k2⟩

theorem length_segments (l : List Segment) : (l.flatMap fun s => [s.start, s.«end»]).length = 2 * l.length := by
  induction l with
  | nil => rfl
  | cons s l ih => rw [List.flatMap_cons, List.length_append, ih]; simp; omega

theorem rep_segments {l : List Segment} (h : ∀ s ∈ l, s.start ≠ s.end) :
    List.Forall₂ (Rep (l.flatMap fun s => [s.start, s.«end»])) (l.mapIdx segmentEdge) l := by
  rw [List.forall₂_iff_get]
  refine ⟨by simp, ?_⟩
  intro i h1 h2
  obtain ⟨a, b⟩ := pt_segments l i h2
  have hl := length_segments l
  have hne := h _ (List.getElem_mem h2)
  simp only [List.get_eq_getElem, List.getElem_mapIdx]
  unfold segmentEdge
  by_cases hc : (l[i].start).ltB l[i].end = true
  · rw [if_pos hc]
    exact ⟨by simp only; omega, by simp only; omega, by simp only [a, b]; exact Point.ltB_iff.mp hc, Or.inl ⟨a, b⟩⟩
  · rw [if_neg hc]
    refine ⟨by simp only; omega, by simp only; omega, ?_, Or.inr ⟨b, a⟩⟩
    simp only [a, b]
    rw [Point.ltB_iff] at hc
    exact lt_of_le_of_ne (not_lt.mp hc) hne.symm

theorem own_segments (l : List Segment) : ∀ i < (l.flatMap fun s => [s.start, s.«end»]).length,
    ∃ e ∈ l.mapIdx segmentEdge, i = e.left ∨ i = e.right := by
  intro i hi
  rw [length_segments] at hi
  have h2 : i / 2 < l.length := by omega
  refine ⟨segmentEdge (i / 2) l[i / 2], List.mem_mapIdx.mpr ⟨i / 2, h2, rfl⟩, ?_⟩
  unfold segmentEdge
  split_ifs <;> simp only <;> omega

/-! ### Contours -/

theorem rep_of {endpoints : List Point} {b b' : Bool} {i j : ℕ} {u v : Point} (hi : i < endpoints.length) (hj : j < endpoints.length)
    (pi : pt endpoints i = u) (pj : pt endpoints j = v) (h : u ≠ v) :
    Rep endpoints (if u.ltB v then ⟨b, i, j⟩ else ⟨b', j, i⟩) ⟨u, v⟩ := by
  by_cases hc : u.ltB v = true
  · rw [if_pos hc]
    exact ⟨hi, hj, by simp only [pi, pj]; exact Point.ltB_iff.mp hc, Or.inl ⟨pi, pj⟩⟩
  · rw [if_neg hc]
    refine ⟨hj, hi, ?_, Or.inr ⟨pj, pi⟩⟩
    simp only [pi, pj]
    rw [Point.ltB_iff] at hc
    exact lt_of_le_of_ne (not_lt.mp hc) h.symm

theorem Rep.flip {endpoints : List Point} {e : Edge} {u v : Point} (h : Rep endpoints e ⟨u, v⟩) : Rep endpoints e ⟨v, u⟩ :=
  ⟨h.l, h.r, h.lt, h.ends.symm⟩

/-- The vertices are at the positions from `k` on. -/
def Block (endpoints : List Point) (k : ℕ) (vs : List Point) : Prop :=
  ∀ j (hj : j < vs.length), k + j < endpoints.length ∧ pt endpoints (k + j) = vs[j]

theorem Block.tail {endpoints : List Point} {k : ℕ} {v : Point} {vs : List Point} (h : Block endpoints k (v :: vs)) :
    Block endpoints (k + 1) vs := by
  intro j hj
  have := h (j + 1) (by simpa using hj)
  rw [show k + (j + 1) = k + 1 + j by omega] at this
  exact this

theorem rep_consecutive {endpoints : List Point} {b : Bool} : ∀ {vs : List Point} {k : ℕ}, Block endpoints k vs →
    (∀ s ∈ consecutive vs, s.start ≠ s.end) →
    List.Forall₂ (Rep endpoints) (contourEdgesFrom b k vs) (consecutive vs)
  | [], k, _, _ => by simp [contourEdgesFrom, consecutive]
  | [v], k, _, _ => by simp [contourEdgesFrom, consecutive]
  | u :: v :: rest, k, h, hn => by
    unfold contourEdgesFrom consecutive
    refine List.Forall₂.cons ?_ (rep_consecutive h.tail fun s hs => hn s (by unfold consecutive; exact List.mem_cons_of_mem _ hs))
    have h0 := h 0 (by simp)
    have h1 := h 1 (by simp)
    exact rep_of h0.1 h1.1 h0.2 h1.2 (hn ⟨u, v⟩ (by unfold consecutive; exact List.mem_cons_self))

theorem rep_contour {endpoints : List Point} {c : Contour} {o : Orientation} {k : ℕ} (h : Block endpoints k c.vertices)
    (hv : c.vertices ≠ []) (hn : ∀ s ∈ c.segments, s.start ≠ s.end) :
    List.Forall₂ (Rep endpoints) (contourEdges c o k) c.segments := by
  obtain ⟨vs⟩ := c
  cases vs with
  | nil => exact absurd rfl hv
  | cons v vs =>
    unfold contourEdges
    unfold Contour.segments toContourSegments at *
    simp only at *
    refine List.rel_append (rep_consecutive h fun s hs => hn s (List.mem_append_left _ hs)) ?_
    refine List.Forall₂.cons ?_ List.Forall₂.nil
    have h0 := h 0 (by simp)
    have h1 := h vs.length (by simp)
    have hlast : (v :: vs).getLastD ⟨0, 0⟩ = (v :: vs).getLast (by simp) := by
      rw [List.getLastD_eq_getLast?, List.getLast?_eq_some_getLast (by simp)]; rfl
    have hne := hn ⟨(v :: vs).getLast (by simp), v⟩ (List.mem_append_right _ (by simp))
    have e : k + (v :: vs).length - 1 = k + vs.length := by simp only [List.length_cons]; omega
    rw [e, hlast]
    simp only [List.headD_cons]
    refine Rep.flip (rep_of (by simpa using h0.1) h1.1 (by simpa using h0.2) ?_ (fun q => hne q.symm))
    rw [h1.2, List.getLast_eq_getElem]
    simp

theorem own_consecutive {b : Bool} : ∀ {vs : List Point} {k j : ℕ}, j + 1 < vs.length →
    ∃ e ∈ contourEdgesFrom b k vs, (k + j = e.left ∧ k + j + 1 = e.right) ∨ (k + j = e.right ∧ k + j + 1 = e.left)
  | [], k, j, h => by simp at h
  | [v], k, j, h => by simp at h
  | u :: v :: rest, k, 0, _ => by
    unfold contourEdgesFrom
    refine ⟨_, List.mem_cons_self, ?_⟩
    split_ifs <;> simp
  | u :: v :: rest, k, j + 1, h => by
    unfold contourEdgesFrom
    obtain ⟨e, he, w⟩ := own_consecutive (b := b) (vs := v :: rest) (k := k + 1) (j := j) (by simpa using h)
    refine ⟨e, List.mem_cons_of_mem _ he, ?_⟩
    rw [show k + (j + 1) = k + 1 + j by omega]; exact w

theorem own_contour {c : Contour} {o : Orientation} {k j : ℕ} (hj : j < c.vertices.length) :
    ∃ e ∈ contourEdges c o k, k + j = e.left ∨ k + j = e.right := by
  unfold contourEdges
  by_cases h : j + 1 < c.vertices.length
  · obtain ⟨e, he, w⟩ := own_consecutive (b := decide (toContourOrientation c.vertices (toArgMin c.vertices) = o)) (k := k) h
    exact ⟨e, List.mem_append_left _ he, by rcases w with w | w; exact Or.inl w.1; exact Or.inr w.1⟩
  · refine ⟨_, List.mem_append_right _ (List.mem_singleton.mpr rfl), ?_⟩
    split_ifs <;> simp only <;> omega

end Rene.Seidel
