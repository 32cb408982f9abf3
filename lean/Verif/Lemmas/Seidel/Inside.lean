import Verif.Lemmas.Seidel.Flags
import Verif.Lemmas.ShapedOps

/-! Which side of the edges of a polygon a trapezoid is on. -/

namespace Rene.Seidel
open Rene Spec Sweep

theorem Rep.lohi {endpoints : List Point} {e : Edge} {s : Segment} (h : Rep endpoints e s) :
    pt endpoints e.left = lo s ∧ pt endpoints e.right = hi s := by
  have hl := h.lt
  rcases lo_hi s with ⟨e1, e2, e3⟩ | ⟨e1, e2, e3⟩ <;> rcases h.ends with ⟨a, b⟩ | ⟨a, b⟩ <;> rw [a, b] at hl ⊢ <;> rw [e1, e2]
  · exact ⟨rfl, rfl⟩
  · exact absurd hl (lt_asymm e3)
  · exact absurd hl e3
  · exact ⟨rfl, rfl⟩

theorem oriented_mem {c : Contour} {t : Orientation} {s : Segment} (h : s ∈ toOrientedSegments c.vertices t) :
    ∃ s' ∈ c.segments, lo s' = lo s ∧ hi s' = hi s := by
  unfold toOrientedSegments at h
  by_cases hc : toContourOrientation c.vertices (toArgMin c.vertices) = t
  · rw [if_pos hc] at h; exact ⟨s, h, rfl, rfl⟩
  · rw [if_neg hc] at h
    have hrot := rotateSequence_rot c.vertices
    have hp : (toContourSegments (rotateSequence c.vertices)).Perm ((toContourSegments c.vertices).map Segment.reverse) :=
      (toContourSegments_rotated hrot).trans (toContourSegments_reverse c.vertices)
    obtain ⟨s', h1, rfl⟩ := List.mem_map.mp (hp.mem_iff.mp h)
    exact ⟨s', h1, (lo_hi_reverse s').1.symm, (lo_hi_reverse s').2.symm⟩

theorem role_of {p : Polygon} {s : Segment} (h : s ∈ p.correctlyOrientedSegments) :
    ∃ c t, Role p c t ∧ s ∈ toOrientedSegments c.vertices t := by
  unfold Polygon.correctlyOrientedSegments at h
  rcases List.mem_append.mp h with k | k
  · exact ⟨_, _, Or.inl ⟨rfl, rfl⟩, k⟩
  · obtain ⟨c, hc, k⟩ := List.mem_flatMap.mp k
    exact ⟨_, _, Or.inr ⟨hc, rfl⟩, k⟩

theorem forall₂_mem' {α β : Type} {R : α → β → Prop} {l : List α} {m : List β} (h : List.Forall₂ R l m) {b : β} (hb : b ∈ m) :
    ∃ a ∈ l, R a b := by
  obtain ⟨hlen, hget⟩ := List.forall₂_iff_get.mp h
  obtain ⟨i, hi, rfl⟩ := List.mem_iff_getElem.mp hb
  exact ⟨l[i]'(hlen ▸ hi), List.getElem_mem _, hget i (hlen ▸ hi) hi⟩

/-- The edges are those of a polygon. -/
structure OfPolygon (p : Polygon) (es : List Edge) (endpoints : List Point) : Prop where
  stands : ∀ i < es.length, ∃ c t s cl, Role p c t ∧ Stands endpoints c t (edgeAt es i) s cl
  cover : ∀ s ∈ p.correctlyOrientedSegments, ∃ i < es.length,
    pt endpoints (edgeAt es i).left = lo s ∧ pt endpoints (edgeAt es i).right = hi s
  verts : ∀ c ∈ polygonContours p, ∀ v ∈ c.vertices, v ∈ endpoints

theorem ofPolygon {p : Polygon} (h : ValidPolygon p) (h2 : ∀ s ∈ (polygonContours p).flatMap Contour.segments, s.start ≠ s.end)
    {es : List Edge} (hp : es.Perm (contourEdges p.border .counterclockwise 0 ++ holesEdges p.border.vertices.length p.holes)) :
    OfPolygon p es (p.border.vertices ++ p.holes.flatMap Contour.vertices) := by
  refine ⟨fun i hi => stands_polygon h (hp.mem_iff.mp (edgeAt_mem hi)), ?_, ?_⟩
  · intro s hs
    obtain ⟨c, t, hr, hm⟩ := role_of hs
    obtain ⟨s', h1, e1, e2⟩ := oriented_mem hm
    have hF := rep_polygon (p := p) (fun c hc w => by have := (h.1 c hc).1; rw [w] at this; simp at this) h2
    obtain ⟨e, he, hrep⟩ := forall₂_mem' hF (List.mem_flatMap.mpr ⟨c, hr.mem, h1⟩)
    obtain ⟨i, hi, w⟩ := List.mem_iff_getElem.mp (hp.mem_iff.mpr he)
    refine ⟨i, hi, ?_⟩
    rw [edgeAt_eq hi, w, ← e1, ← e2]
    exact hrep.lohi
  · intro c hc v hv
    unfold polygonContours at hc
    rcases List.mem_cons.mp hc with rfl | hc
    · exact List.mem_append_left _ hv
    · exact List.mem_append_right _ (List.mem_flatMap.mpr ⟨c, hc, hv⟩)

/-! ### Points of a vertical line -/

section
variable {box : Box} {es : List Edge} {endpoints : List Point} {q : Point} {ε : ℚ} {g : Geo} {N : Nodes}

theorem Sees.below_iff (v : Sees box es endpoints q ε g) (h : EdgesOk box es endpoints) {i : ℕ} (hi : i < es.length) {s : Segment}
    (e1 : Seidel.pt endpoints (edgeAt es i).left = lo s) (e2 : Seidel.pt endpoints (edgeAt es i).right = Sweep.hi s) (z : Point) :
    below ε s z = true ↔ g.xv (g.lft i) ≤ Xe ε z ∧ Xe ε z < g.xv (g.rgt i) ∧ g.f i (Xe ε z) < z.y := by
  have hX : ∀ z, (frameCtx es endpoints ε).X z = Xe ε z := fun _ => rfl
  have hlt := v.lt_lr h hi
  have k := Ctx.cr_on (q := z) (frame_onL i) (frame_onR hlt)
  rw [Sweep.below_iff, ← e1, ← e2, v.lft hi, v.rgt hi, v.xv (h.lft i hi), v.xv (h.rgt i hi), v.f hi, k, hX, hX, hX]
  rw [hX, hX] at hlt
  refine and_congr_right fun _ => and_congr_right fun _ => ?_
  rw [mul_pos_iff_of_pos_left (by linarith)]
  constructor <;> intro <;> linarith

/-- The point of the vertical line through the seen point. -/
def up (ε : ℚ) (q : Point) (y : ℚ) : Point := ⟨Xe ε q - ε * y, y⟩

theorem Xe_up (ε : ℚ) (q : Point) (y : ℚ) : Xe ε (up ε q y) = Xe ε q := by
  unfold up Xe; simp only; ring

theorem up_self (ε : ℚ) (q : Point) : up ε q q.y = q := by
  unfold up Xe; refine Point.ext' ?_ rfl; simp only; ring

theorem mem_openSeg_of {a b z : Point} (h : z ∈ seg a b) (h1 : z ≠ a) (h2 : z ≠ b) : z ∈ openSeg a b := by
  obtain ⟨t, t0, t1, rfl⟩ := h
  refine ⟨t, lt_of_le_of_ne t0 ?_, lt_of_le_of_ne t1 ?_, rfl⟩
  · rintro rfl; exact h1 (by unfold lerp; refine Point.ext' ?_ ?_ <;> simp)
  · rintro rfl; exact h2 (by unfold lerp; refine Point.ext' ?_ ?_ <;> simp)

/-- A point off the edges of a polygon, and the trapezoid in which it is. -/
structure Spot (p : Polygon) (box : Box) (es : List Edge) (endpoints : List Point) (q : Point) (ε : ℚ) (g : Geo) (N : Nodes)
    (j : ℕ) : Prop where
  vp : ValidPolygon p
  o : OfPolygon p es endpoints
  v : Sees box es endpoints q ε g
  h : EdgesOk box es endpoints
  d : Dec g g.n N
  hs : Stops g g.n N
  hj : isLeaf N j = true
  hr : Reg g (trapAt N j) (Xe ε q) q.y
  hq : ∀ e < es.length, q ∉ seg (Seidel.pt endpoints (edgeAt es e).left) (Seidel.pt endpoints (edgeAt es e).right)

variable {p : Polygon} {j : ℕ}

/-- The segment and the edge at a position. -/
def At (es : List Edge) (endpoints : List Point) (i : ℕ) (s : Segment) : Prop :=
  Seidel.pt endpoints (edgeAt es i).left = lo s ∧ Seidel.pt endpoints (edgeAt es i).right = hi s

namespace Spot
variable (S : Spot p box es endpoints q ε g N j)
include S

theorem noOverlap : NoOverlap p.correctlyOrientedSegments := noOverlap_of_perm (polygon_sets S.vp).symm S.vp.2.1

theorem uniq {s s' : Segment} (hs : s ∈ p.correctlyOrientedSegments) (hs' : s' ∈ p.correctlyOrientedSegments)
    (e1 : lo s = lo s') (e2 : hi s = hi s') : s = s' := by
  by_contra hne
  have hn := S.noOverlap
  have e : segPts s = segPts s' := by rw [segPts_eq, segPts_eq, e1, e2]
  have k := Sweep.not_atMostOne_seg.mpr (hn.1 s hs)
  rcases pairwise_or hn.2 hs hs' hne with w | w <;> unfold Apart at w <;> rw [e, Set.inter_self] at w
  · exact k (e ▸ w)
  · exact k (e ▸ w)

theorem xne {i : ℕ} (hi : i < es.length) : Xe ε q ≠ g.xv (g.lft i) ∧ Xe ε q ≠ g.xv (g.rgt i) := by
  have hf := S.v.free S.h S.hq
  have hi' : i < g.n := by rw [S.v.n]; exact hi
  exact ⟨hf _ (S.v.good.lft i hi'), hf _ (S.v.good.rgt i hi')⟩

/-- No edge goes through the trapezoid. -/
theorem gap {i : ℕ} (hi : i < es.length) (h1 : g.xv (g.lft i) ≤ Xe ε q) (h2 : Xe ε q ≤ g.xv (g.rgt i)) :
    g.f i (Xe ε q) ≤ g.f (trapAt N j).below (Xe ε q) ∨ g.f (trapAt N j).above (Xe ε q) ≤ g.f i (Xe ε q) := by
  by_contra hc
  push Not at hc
  have hi' : i < g.n := by rw [S.v.n]; exact hi
  exact S.hs.notReg S.v.good S.d hi' hi' h1 h2 S.hj ⟨S.hr.1, S.hr.2.1, hc.1, hc.2⟩

theorem below_up {i : ℕ} (hi : i < es.length) {s : Segment} (hA : At es endpoints i s) (y : ℚ) :
    below ε s (up ε q y) = true ↔ (g.xv (g.lft i) ≤ Xe ε q ∧ Xe ε q ≤ g.xv (g.rgt i)) ∧ g.f i (Xe ε q) < y := by
  rw [S.v.below_iff S.h hi hA.1 hA.2, Xe_up]
  have := (S.xne hi).2
  show _ ∧ _ ∧ g.f i (Xe ε q) < y ↔ _
  constructor
  · rintro ⟨a, b, c⟩; exact ⟨⟨a, b.le⟩, c⟩
  · rintro ⟨⟨a, b⟩, c⟩; exact ⟨a, lt_of_le_of_ne b this, c⟩

theorem mem_up {i : ℕ} (hi : i < es.length) {s : Segment} (hA : At es endpoints i s) (y : ℚ) :
    up ε q y ∈ segPts s ↔ y = g.f i (Xe ε q) ∧ g.xv (g.lft i) ≤ Xe ε q ∧ Xe ε q ≤ g.xv (g.rgt i) := by
  have hX : (frameCtx es endpoints ε).X (up ε q y) = Xe ε q := Xe_up ε q y
  rw [segPts_eq, ← hA.1, ← hA.2, S.v.mem S.h hi, hX]
  rfl

theorem same_up {s : Segment} (hs : s ∈ p.correctlyOrientedSegments) {y : ℚ}
    (h1 : g.f (trapAt N j).below (Xe ε q) < y) (h2 : y ≤ g.f (trapAt N j).above (Xe ε q)) :
    below ε s (up ε q y) = below ε s q := by
  obtain ⟨i, hi, hA⟩ := S.o.cover s hs
  have k := S.below_up hi hA q.y
  rw [up_self] at k
  rw [Bool.eq_iff_iff, S.below_up hi hA, k]
  refine and_congr_right fun ⟨w1, w2⟩ => ?_
  have hr := S.hr
  obtain ⟨_, _, r3, r4⟩ := hr
  rcases S.gap hi w1 w2 with w | w
  · exact ⟨fun _ => by linarith, fun _ => by linarith⟩
  · exact ⟨fun _ => by linarith, fun _ => by linarith⟩

theorem off_up {y : ℚ} (h1 : g.f (trapAt N j).below (Xe ε q) < y) (h2 : y < g.f (trapAt N j).above (Xe ε q)) :
    up ε q y ∉ segsPts p.correctlyOrientedSegments := by
  rintro ⟨s, hs, hm⟩
  obtain ⟨i, hi, hA⟩ := S.o.cover s hs
  obtain ⟨e, w1, w2⟩ := (S.mem_up hi hA y).mp hm
  rcases S.gap hi w1 w2 with w | w <;> linarith

theorem off_q : q ∉ segsPts p.correctlyOrientedSegments := by
  have := S.off_up S.hr.2.2.1 S.hr.2.2.2
  rwa [up_self] at this

theorem spB : g.Sp (trapAt N j).below (Xe ε q) :=
  (S.d.trap j S.hj).sbl.mono (S.d.trap j S.hj).sbr S.hr.1.le S.hr.2.1.le

theorem spA : g.Sp (trapAt N j).above (Xe ε q) :=
  (S.d.trap j S.hj).sal.mono (S.d.trap j S.hj).sar S.hr.1.le S.hr.2.1.le

theorem at_uniq {i b : ℕ} (hi : i < es.length) (hb : b < es.length) {s s' : Segment} (hA : At es endpoints i s)
    (hB : At es endpoints b s') (hs : s ∈ p.correctlyOrientedSegments) (hs' : s' ∈ p.correctlyOrientedSegments)
    (h1 : g.xv (g.lft i) ≤ Xe ε q ∧ Xe ε q ≤ g.xv (g.rgt i)) (h2 : g.Sp b (Xe ε q)) (h3 : g.f i (Xe ε q) = g.f b (Xe ε q)) :
    s = s' := by
  have := S.v.same hi hb (S.v.free S.h S.hq) (fun _ => h1) h2 h3
  subst this
  exact S.uniq hs hs' (hA.1.symm.trans hB.1) (hA.2.symm.trans hB.2)

/-- The point of the edge above or below is on no other edge. -/
theorem only {b : ℕ} (hb : b < es.length) {s' : Segment} (hB : At es endpoints b s')
    (hs' : s' ∈ p.correctlyOrientedSegments) (h2 : g.Sp b (Xe ε q)) : ∀ s ∈ p.correctlyOrientedSegments, s ≠ s' →
      up ε q (g.f b (Xe ε q)) ∉ segPts s := by
  intro s hs hne hm
  obtain ⟨i, hi, hA⟩ := S.o.cover s hs
  obtain ⟨e, w⟩ := (S.mem_up hi hA _).mp hm
  exact hne (S.at_uniq hi hb hA hB hs hs' w h2 e.symm)

theorem on {b : ℕ} (hb : b < es.length) {s' : Segment} (hB : At es endpoints b s') (h2 : g.Sp b (Xe ε q)) :
    up ε q (g.f b (Xe ε q)) ∈ segPts s' :=
  (S.mem_up hb hB _).mpr ⟨rfl, h2 (by rw [S.v.n]; exact hb)⟩

theorem inOpen {b : ℕ} (hb : b < es.length) {s' : Segment} (hB : At es endpoints b s') (h2 : g.Sp b (Xe ε q)) :
    up ε q (g.f b (Xe ε q)) ∈ openSeg s'.start s'.end := by
  have hX : ∀ z, (frameCtx es endpoints ε).X z = Xe ε z := fun _ => rfl
  have e1 := S.v.xv (S.h.lft b hb)
  have e2 := S.v.xv (S.h.rgt b hb)
  rw [← S.v.lft hb, hX] at e1
  rw [← S.v.rgt hb, hX] at e2
  have n := S.xne hb
  have l : up ε q (g.f b (Xe ε q)) ≠ lo s' := by
    rw [← hB.1]; intro w
    have := congrArg (Xe ε) w
    rw [Xe_up, ← S.v.lft hb, ← e1] at this
    exact n.1 this
  have r : up ε q (g.f b (Xe ε q)) ≠ hi s' := by
    rw [← hB.2]; intro w
    have := congrArg (Xe ε) w
    rw [Xe_up, ← S.v.rgt hb, ← e2] at this
    exact n.2 this
  refine mem_openSeg_of (S.on hb hB h2) ?_ ?_ <;> rcases lo_hi s' with ⟨a, b, _⟩ | ⟨a, b, _⟩
  · rwa [← a]
  · rwa [← b]
  · rwa [← b]
  · rwa [← a]

theorem same_low (hb : (trapAt N j).below < es.length) {s' : Segment} (hB : At es endpoints (trapAt N j).below s')
    (hs' : s' ∈ p.correctlyOrientedSegments) {s : Segment} (hs : s ∈ p.correctlyOrientedSegments) (hne : s ≠ s') :
    below ε s (up ε q (g.f (trapAt N j).below (Xe ε q))) = below ε s q := by
  obtain ⟨i, hi, hA⟩ := S.o.cover s hs
  have k := S.below_up hi hA q.y
  rw [up_self] at k
  rw [Bool.eq_iff_iff, S.below_up hi hA, k]
  refine and_congr_right fun ⟨w1, w2⟩ => ?_
  obtain ⟨_, _, r3, r4⟩ := S.hr
  have hne' : g.f i (Xe ε q) ≠ g.f (trapAt N j).below (Xe ε q) := fun e =>
    hne (S.at_uniq hi hb hA hB hs hs' ⟨w1, w2⟩ S.spB e)
  rcases S.gap hi w1 w2 with w | w
  · exact ⟨fun _ => by linarith, fun _ => lt_of_le_of_ne w hne'⟩
  · exact ⟨fun _ => by linarith, fun _ => by linarith⟩

theorem gen : ∀ c ∈ polygonContours p, Sweep.Gen ε (· ∈ c.vertices) := by
  intro c hc u hu w hw huw
  obtain ⟨i, hi, e1⟩ := List.mem_iff_getElem.mp (S.o.verts c hc u hu)
  obtain ⟨k, hk, e2⟩ := List.mem_iff_getElem.mp (S.o.verts c hc w hw)
  have p1 : Seidel.pt endpoints i = u := by unfold Seidel.pt; rw [List.getD_eq_getElem _ _ hi, e1]
  have p2 : Seidel.pt endpoints k = w := by unfold Seidel.pt; rw [List.getD_eq_getElem _ _ hk, e2]
  have := (S.v.good.lt i k (Or.inl (by rw [S.v.k]; exact hi)) (Or.inl (by rw [S.v.k]; exact hk))).mp (by
    rw [S.v.pt hi, S.v.pt hk, p1, p2]; exact huw)
  rw [S.v.xv hi, S.v.xv hk, p1, p2] at this
  exact this

theorem edges : Edges ε p.correctlyOrientedSegments {z | p.locate z = .interior} := polygon_edges S.vp S.gen

theorem inside_iff : p.locate q = .interior ↔ downParity ε q p.correctlyOrientedSegments = true :=
  (S.edges.off q S.off_q).symm

theorem nodup : p.correctlyOrientedSegments.Nodup := nodup_of_noOverlap S.noOverlap

/-- The edge below goes up if and only if the point is inside. -/
theorem dirB (hb : (trapAt N j).below < es.length) {s : Segment} (hB : At es endpoints (trapAt N j).below s)
    (hs : s ∈ p.correctlyOrientedSegments) : goesUp s = downParity ε q p.correctlyOrientedSegments := by
  rw [S.edges.dir s hs _ (S.inOpen hb hB S.spB) (S.only hb hB hs S.spB)]
  have k := xorSum_at S.nodup hs (g := fun s => below ε s (up ε q (g.f (trapAt N j).below (Xe ε q))))
    (h := fun s => below ε s q) (fun s' hs' hne => S.same_low hb hB hs hs' hne)
  have sp := S.spB (by rw [S.v.n]; exact hb)
  have b1 : below ε s (up ε q (g.f (trapAt N j).below (Xe ε q))) = false := by
    rw [← Bool.not_eq_true, S.below_up hb hB]
    exact fun w => lt_irrefl _ w.2
  have b2 : below ε s q = true := by
    have := S.below_up hb hB q.y
    rw [up_self] at this
    exact this.mpr ⟨sp, S.hr.2.2.1⟩
  simp only [b1, b2] at k
  unfold downParity
  generalize xorSum (fun s => below ε s (up ε q (g.f (trapAt N j).below (Xe ε q)))) _ = x at *
  generalize xorSum (fun s => below ε s q) _ = y at *
  cases x <;> cases y <;> simp_all

/-- The edge above goes down if and only if the point is inside. -/
theorem dirA (ha : (trapAt N j).above < es.length) {s : Segment} (hA : At es endpoints (trapAt N j).above s)
    (hs : s ∈ p.correctlyOrientedSegments) : goesUp s = !downParity ε q p.correctlyOrientedSegments := by
  rw [S.edges.dir s hs _ (S.inOpen ha hA S.spA) (S.only ha hA hs S.spA)]
  congr 1
  have := S.hr
  exact xorSum_congr fun s' hs' => S.same_up hs' (by linarith [this.2.2.1, this.2.2.2]) le_rfl

theorem frameB (hb : (trapAt N j).below = g.n + 1) : downParity ε q p.correctlyOrientedSegments = false := by
  refine xorSum_false fun s hs => ?_
  obtain ⟨i, hi, hA⟩ := S.o.cover s hs
  have k := S.below_up hi hA q.y
  rw [up_self] at k
  rw [← Bool.not_eq_true, k]
  rintro ⟨⟨w1, w2⟩, w3⟩
  obtain ⟨_, _, r3, r4⟩ := S.hr
  have hi' : i < g.n := by rw [S.v.n]; exact hi
  have := S.v.good.bot_edge hi' (t := Xe ε q) (fun _ => ⟨w1, w2⟩)
  rcases S.gap hi w1 w2 with w | w
  · rw [hb] at w; linarith
  · linarith

theorem frameA (ha : (trapAt N j).above = g.n) : downParity ε q p.correctlyOrientedSegments = false := by
  rw [← S.edges.closed (fun v => decide (Xe ε v ≤ Xe ε q))]
  refine xorSum_congr fun s hs => ?_
  obtain ⟨i, hi, hA⟩ := S.o.cover s hs
  have k := S.below_up hi hA q.y
  rw [up_self] at k
  have hi' : i < g.n := by rw [S.v.n]; exact hi
  obtain ⟨_, _, r3, r4⟩ := S.hr
  have hX : ∀ z, (frameCtx es endpoints ε).X z = Xe ε z := fun _ => rfl
  have e1 := S.v.xv (S.h.lft i hi)
  have e2 := S.v.xv (S.h.rgt i hi)
  rw [hX, hA.1, ← S.v.lft hi] at e1
  rw [hX, hA.2, ← S.v.rgt hi] at e2
  have n := S.xne hi
  have hlt := S.v.good.pos i hi'
  rw [e1, e2] at k hlt
  rw [e1, e2] at n
  have k' : below ε s q = true ↔ Xe ε (lo s) ≤ Xe ε q ∧ Xe ε q ≤ Xe ε (Sweep.hi s) := by
    rw [k]
    refine ⟨fun w => w.1, fun w => ⟨w, ?_⟩⟩
    have w1 : g.xv (g.lft i) ≤ Xe ε q := by rw [e1]; exact w.1
    have w2 : Xe ε q ≤ g.xv (g.rgt i) := by rw [e2]; exact w.2
    have := S.v.good.top_edge hi' (t := Xe ε q) (fun _ => ⟨w1, w2⟩)
    rcases S.gap hi w1 w2 with w | w
    · linarith
    · rw [ha] at w; linarith
  have e : (decide (Xe ε s.start ≤ Xe ε q) ^^ decide (Xe ε s.end ≤ Xe ε q)) =
      (decide (Xe ε (lo s) ≤ Xe ε q) ^^ decide (Xe ε (Sweep.hi s) ≤ Xe ε q)) := by
    rcases lo_hi s with ⟨a, b, _⟩ | ⟨a, b, _⟩ <;> rw [a, b]
    rw [Bool.xor_comm]
  rw [e, Bool.eq_iff_iff, k']
  by_cases w1 : Xe ε (lo s) ≤ Xe ε q
  · by_cases w2 : Xe ε (Sweep.hi s) ≤ Xe ε q
    · have : ¬ Xe ε q ≤ Xe ε (Sweep.hi s) := fun w => n.2 (le_antisymm w w2)
      simp [w1, w2, this]
    · simp [w1, w2, (not_le.mp w2).le]
  · have w2 : ¬ Xe ε (Sweep.hi s) ≤ Xe ε q := fun w => w1 (by linarith)
    simp [w1, w2]

/-- Contours to which the edge does not belong do not separate the point from the edge. -/
theorem region_eq {z : Point} {s' : Segment} (H1 : ∀ s ∈ p.correctlyOrientedSegments, s ≠ s' → z ∉ segPts s)
    (H2 : ∀ s ∈ p.correctlyOrientedSegments, s ≠ s' → below ε s z = below ε s q) {c c' : Contour} {t' : Orientation}
    (hc : c ∈ polygonContours p) (hc' : Role p c' t') (hs' : s' ∈ toOrientedSegments c'.vertices t') (hne : c ≠ c') :
    locatePointInRegion c z = locatePointInRegion c q := by
  obtain ⟨t, ht⟩ : ∃ t, Role p c t := by
    unfold polygonContours at hc
    rcases List.mem_cons.mp hc with w | w
    · exact ⟨_, Or.inl ⟨w, rfl⟩⟩
    · exact ⟨_, Or.inr ⟨w, rfl⟩⟩
  have hd : ∀ s ∈ toOrientedSegments c.vertices t, s ≠ s' := by
    rintro s hs rfl
    exact hne (ht.unique S.nodup hc' hs hs')
  obtain ⟨_, _, _, k4, k5⟩ := oriented_parity (S.vp.1 c hc) (S.gen c hc) ht.ne
  have z1 : z ∉ contourPts c := by
    rw [← k5]
    rintro ⟨s, hs, hm⟩
    exact H1 s (ht.sub hs) (hd s hs) hm
  have q1 : q ∉ contourPts c := by
    rw [← k5]
    rintro ⟨s, hs, hm⟩
    exact S.off_q ⟨s, ht.sub hs, hm⟩
  have a := k4 z z1
  have b := k4 q q1
  rw [show downParity ε z (toOrientedSegments c.vertices t) = downParity ε q (toOrientedSegments c.vertices t) from
    xorSum_congr fun s hs => H2 s (ht.sub hs) (hd s hs), b, decide_eq_decide] at a
  rw [locatePointInRegion_of_not_mem z1, locatePointInRegion_of_not_mem q1] at *
  split_ifs at * <;> simp_all

end Spot

/-- A point which is not inside of the polygon is not between edges of different contours. -/
theorem exterior_sees_one {p : Polygon} (h : ValidPolygon p) {q z1 z2 : Point} {c1 c2 : Contour}
    (hq : ∀ c ∈ polygonContours p, locatePointInRegion c q ≠ .boundary) (he : p.locate q ≠ .interior)
    (h1 : c1 ∈ polygonContours p) (h2 : c2 ∈ polygonContours p) (hne : c1 ≠ c2)
    (b1 : locatePointInRegion c1 z1 = .boundary) (b2 : locatePointInRegion c2 z2 = .boundary)
    (H1 : ∀ c ∈ polygonContours p, c ≠ c1 → locatePointInRegion c z1 = locatePointInRegion c q)
    (H2 : ∀ c ∈ polygonContours p, c ≠ c2 → locatePointInRegion c z2 = locatePointInRegion c q) : False := by
  obtain ⟨_, _, h3, h4⟩ := id h
  have hbm : p.border ∈ polygonContours p := by simp [polygonContours]
  have hhm : ∀ k ∈ p.holes, k ∈ polygonContours p := fun k hk => by simp [polygonContours, hk]
  have cases : ∀ c ∈ polygonContours p, c = p.border ∨ c ∈ p.holes := fun c hc => by
    simpa [polygonContours] using hc
  have key : locatePointInRegion p.border q = .exterior ∨ ∃ k ∈ p.holes, locatePointInRegion k q = .interior := by
    by_contra hc
    push Not at hc
    apply he
    rw [(C24_polygon_locate p q).1]
    refine ⟨?_, fun k hk => ?_⟩
    · have := hq _ hbm
      have := hc.1
      generalize locatePointInRegion p.border q = r at *
      cases r <;> simp_all
    · have := hq _ (hhm k hk)
      have := hc.2 k hk
      generalize locatePointInRegion k q = r at *
      cases r <;> simp_all
  rcases key with k | ⟨k, hk, k'⟩
  · -- outside of the border
    have go : ∀ c z, c ∈ polygonContours p → c ≠ p.border → locatePointInRegion c z = .boundary →
        (∀ c' ∈ polygonContours p, c' ≠ c → locatePointInRegion c' z = locatePointInRegion c' q) → False := by
      intro c z hc hcb hb H
      rcases cases c hc with w | w
      · exact hcb w
      · refine (h3 c w z).2 hb ?_
        rw [H _ hbm (Ne.symm hcb), k]
    by_cases w : c1 = p.border
    · exact go c2 z2 h2 (fun e => hne (w.trans e.symm)) b2 H2
    · exact go c1 z1 h1 w b1 H1
  · have go : ∀ c z, c ∈ polygonContours p → c ≠ k → locatePointInRegion c z = .boundary →
        (∀ c' ∈ polygonContours p, c' ≠ c → locatePointInRegion c' z = locatePointInRegion c' q) → False := by
      intro c z hc hck hb H
      have hi : locatePointInRegion k z = .interior := by rw [H k (hhm k hk) (Ne.symm hck), k']
      rcases cases c hc with w | w
      · have := (h3 k hk z).1 hi
        rw [← w, hb] at this
        cases this
      · rcases pairwise_or h4 w hk hck with u | u
        · exact (u z).2 ⟨hi, by rw [hb]; decide⟩
        · exact (u z).1 ⟨hi, by rw [hb]; decide⟩
    by_cases w : c1 = k
    · exact go c2 z2 h2 (fun e => hne (w.trans e.symm)) b2 H2
    · exact go c1 z1 h1 w b1 H1

theorem closes_same {c : Contour} {s s' : Segment} (h : Closes c s.start s.end) (h' : Closes c s'.start s'.end) :
    lo s = lo s' ∧ hi s = hi s' := by
  have : s = s' ∨ s = s'.reverse := by
    obtain ⟨a, b⟩ := s
    obtain ⟨a', b'⟩ := s'
    unfold Closes Segment.reverse at *
    simp only at *
    rcases h with ⟨rfl, rfl⟩ | ⟨rfl, rfl⟩ <;> rcases h' with ⟨rfl, rfl⟩ | ⟨rfl, rfl⟩ <;> simp
  rcases this with rfl | rfl
  · exact ⟨rfl, rfl⟩
  · exact lo_hi_reverse s'

theorem eq_up {w : Point} (h : Xe ε w = Xe ε q) : w = up ε q w.y := by
  unfold up
  refine Point.ext' ?_ rfl
  simp only
  unfold Xe at *
  linarith

/-- A point of the edge between the last and the first vertex of a contour is seen from inside of the polygon. -/
def SeesClosing (p : Polygon) (q : Point) : Prop :=
  ∃ c ∈ polygonContours p, ∃ z ∈ openSeg (lastOf c) (c.vertices.headD ⟨0, 0⟩), ∀ w ∈ openSeg q z, p.locate w = .interior

theorem Spot.seen (S : Spot p box es endpoints q ε g N j) (hin : p.locate q = .interior) {b : ℕ} (hb : b < es.length)
    (hf : g.f b (Xe ε q) = g.f (trapAt N j).below (Xe ε q) ∨ g.f b (Xe ε q) = g.f (trapAt N j).above (Xe ε q))
    {s : Segment} (hB : At es endpoints b s) (h2 : g.Sp b (Xe ε q)) {c : Contour} {t : Orientation} (hr : Role p c t)
    (hc : Closes c s.start s.end) : SeesClosing p q := by
  obtain ⟨_, _, r3, r4⟩ := S.hr
  refine ⟨c, hr.mem, up ε q (g.f b (Xe ε q)), ?_, ?_⟩
  · have := S.inOpen hb hB h2
    rcases hc with ⟨a, b⟩ | ⟨a, b⟩
    · rwa [a, b] at this
    · rw [a, b, openSeg_comm] at this; exact this
  · rintro w ⟨t, t0, t1, rfl⟩
    have hx : Xe ε (lerp q (up ε q (g.f b (Xe ε q))) t) = Xe ε q := by rw [Xe_lerp, Xe_up]; ring
    have hy : (lerp q (up ε q (g.f b (Xe ε q))) t).y = q.y + t * (g.f b (Xe ε q) - q.y) := rfl
    rw [eq_up hx, hy]
    have y1 : g.f (trapAt N j).below (Xe ε q) < q.y + t * (g.f b (Xe ε q) - q.y) := by
      rcases hf with e | e <;> rw [e] <;> nlinarith
    have y2 : q.y + t * (g.f b (Xe ε q) - q.y) < g.f (trapAt N j).above (Xe ε q) := by
      rcases hf with e | e <;> rw [e] <;> nlinarith
    refine (S.edges.off _ (S.off_up y1 y2)).mp ?_
    rw [← S.inside_iff.mp hin]
    exact xorSum_congr fun s hs => S.same_up hs y1 y2.le

/-- What the flags say. -/
theorem Spot.answer (S : Spot p box es endpoints q ε g N j) (hcomp : (trapAt N j).isComponent =
      ((edgeAt g.edges (trapAt N j).below).interiorToLeft && !(edgeAt g.edges (trapAt N j).above).interiorToLeft)) :
    ((trapAt N j).isComponent = true → p.locate q = .interior) ∧
    ((trapAt N j).isComponent = false → p.locate q = .interior → SeesClosing p q) := by
  rw [hcomp]
  have hX : (frameCtx es endpoints ε).X q = Xe ε q := rfl
  rcases (S.d.edg j S.hj).2 with hb | hb
  swap
  · have hF := S.frameB hb
    have e : (edgeAt g.edges (trapAt N j).below).interiorToLeft = false := by
      rw [hb, S.v.hedges, S.v.n]; unfold edgeAt
      rw [List.getD_append_right _ _ _ _ (by omega)]; simp
    rw [e, S.inside_iff, hF]
    simp
  rcases (S.d.edg j S.hj).1 with ha | ha
  swap
  · have hF := S.frameA ha
    have e : (edgeAt g.edges (trapAt N j).above).interiorToLeft = true := by
      rw [ha, S.v.hedges, S.v.n]; unfold edgeAt
      rw [List.getD_append_right _ _ _ _ (by omega)]; simp
    rw [e, S.inside_iff, hF]
    simp
  rw [S.v.n] at ha hb
  obtain ⟨cb, tb, sb, kb, rb, stb⟩ := S.o.stands _ hb
  obtain ⟨ca, ta, sa, ka, ra, sta⟩ := S.o.stands _ ha
  have hB : At es endpoints (trapAt N j).below sb := ⟨stb.lo, stb.hi⟩
  have hA : At es endpoints (trapAt N j).above sa := ⟨sta.lo, sta.hi⟩
  have mb := rb.sub stb.so
  have ma := ra.sub sta.so
  have db := S.dirB hb hB mb
  have da := S.dirA ha hA ma
  rw [S.v.hedges, edgeAt_append hb, edgeAt_append ha, stb.flag, sta.flag, db, da]
  have hin := S.inside_iff
  rcases hD : downParity ε q p.correctlyOrientedSegments with _ | _
  · -- outside
    rw [hD] at hin db da
    have hne : p.locate q ≠ .interior := fun w => by have := hin.mp w; cases this
    refine ⟨fun w => ?_, fun _ w => absurd w hne⟩
    exfalso
    have k1 : kb = true := by cases kb <;> simp_all
    have k2 : ka = true := by cases ka <;> simp_all
    have c1 := stb.close k1
    have c2 := sta.close k2
    by_cases hc : cb = ca
    · subst hc
      obtain ⟨e1, e2⟩ := closes_same c1 c2
      have := S.uniq mb ma e1 e2
      rw [this, da] at db
      cases db
    · refine exterior_sees_one S.vp (q := q) (z1 := up ε q (g.f (trapAt N j).below (Xe ε q)))
        (z2 := up ε q (g.f (trapAt N j).above (Xe ε q))) ?_ hne rb.mem ra.mem hc ?_ ?_ ?_ ?_
      · intro c hcm hbd
        have : q ∈ segsPts ((polygonContours p).flatMap Contour.segments) := by
          rw [segsPts_flatMap]
          refine ⟨c, hcm, ?_⟩
          by_contra hq
          rw [locatePointInRegion_of_not_mem hq] at hbd
          split_ifs at hbd
        rw [← segsPts_of_sets (polygon_sets S.vp)] at this
        exact S.off_q this
      · refine locatePointInRegion_of_mem ?_
        have := (oriented_parity (S.vp.1 cb rb.mem) (S.gen cb rb.mem) rb.ne).2.2.2.2
        rw [← this]
        exact ⟨sb, stb.so, S.on hb hB S.spB⟩
      · refine locatePointInRegion_of_mem ?_
        have := (oriented_parity (S.vp.1 ca ra.mem) (S.gen ca ra.mem) ra.ne).2.2.2.2
        rw [← this]
        exact ⟨sa, sta.so, S.on ha hA S.spA⟩
      · intro c hcm hcn
        exact S.region_eq (S.only hb hB mb S.spB) (fun s hs hne => S.same_low hb hB mb hs hne) hcm rb stb.so hcn
      · intro c hcm hcn
        have r := S.hr
        exact S.region_eq (S.only ha hA ma S.spA)
          (fun s hs _ => S.same_up hs (by linarith [r.2.2.1, r.2.2.2]) le_rfl) hcm ra sta.so hcn
  · -- inside
    rw [hD] at hin
    refine ⟨fun _ => hin.mpr rfl, fun w hi => ?_⟩
    by_cases k1 : kb = true
    · exact S.seen hi hb (Or.inl rfl) hB S.spB rb (stb.close k1)
    by_cases k2 : ka = true
    · exact S.seen hi ha (Or.inr rfl) hA S.spA ra (sta.close k2)
    · cases kb <;> cases ka <;> simp_all

end

/-- The points called interior are inside of the polygon, and the points inside of it which are not called so see
the edge which closes a contour. -/
theorem fromBox_inside {p : Polygon} (hv : ValidPolygon p) {box : Box} {es : List Edge} {endpoints : List Point}
    (h : EdgesOk box es endpoints) (o : OfPolygon p es endpoints) {T : Trapezoidation} (hT : fromBox box es endpoints = .ok T)
    (q : Point) : (T.locate q = some .interior → p.locate q = .interior) ∧
      (T.locate q = some .exterior → p.locate q = .interior → SeesClosing p q) := by
  obtain ⟨ε, hε⟩ := exists_sees box endpoints q
  obtain ⟨g, s⟩ := hε es h
  obtain ⟨N, hN, S, hs⟩ := fromBox_ok s.good s.hedges s.hendpoints s.n s.k h.ne h.nonempty
  have c := fromBox_comp hN
  rw [hT] at hN
  injection hN with hN
  subst hN
  have key : ∀ r, Trapezoidation.locate ⟨g.edges, g.endpoints, N⟩ q = some r → r ≠ .boundary →
      ∃ j, isLeaf N j = true ∧ Spot p box es endpoints q ε g N j ∧ r = if (trapAt N j).isComponent then .interior else .exterior := by
    intro r hr hb
    rcases s.locate h S.dec hs hr with ⟨w1, _⟩ | ⟨w1, j, w2, w3, w4⟩
    · exact absurd w1 hb
    · exact ⟨j, w2, ⟨hv, o, s, h, S.dec, hs, w2, w3, w1⟩, w4⟩
  constructor
  · intro hr
    obtain ⟨j, hj, sp, e⟩ := key _ hr (by decide)
    refine (sp.answer (c j hj)).1 ?_
    split_ifs at e with w
    exact w
  · intro hr
    obtain ⟨j, hj, sp, e⟩ := key _ hr (by decide)
    refine (sp.answer (c j hj)).2 ?_
    split_ifs at e with w
    exact Bool.eq_false_iff.mpr w

end Rene.Seidel
