import Verif.Lemmas.Seidel.Build
import Verif.Lemmas.Sweep.Build
import Verif.Lemmas.BoundingBox
import Mathlib.Data.List.GetD

/-! The geometry behind a trapezoidation of given edges, as seen from a point. -/

namespace Rene.Seidel
open Rene Spec Sweep

/-- Edges which meet at common end points only, inside of the box. -/
structure EdgesOk (box : Box) (edges : List Edge) (endpoints : List Point) : Prop where
  ne : edges ≠ []
  lft : ∀ e < edges.length, (edgeAt edges e).left < endpoints.length
  rgt : ∀ e < edges.length, (edgeAt edges e).right < endpoints.length
  lt : ∀ e < edges.length, pt endpoints (edgeAt edges e).left < pt endpoints (edgeAt edges e).right
  apart : ∀ i < edges.length, ∀ j < edges.length, i ≠ j → ∀ q,
    q ∈ seg (pt endpoints (edgeAt edges i).left) (pt endpoints (edgeAt edges i).right) →
    q ∈ seg (pt endpoints (edgeAt edges j).left) (pt endpoints (edgeAt edges j).right) →
    q = pt endpoints (edgeAt edges i).left ∨ q = pt endpoints (edgeAt edges i).right
  own : ∀ i < endpoints.length, ∃ e < edges.length, i = (edgeAt edges e).left ∨ i = (edgeAt edges e).right
  box : ∀ i < endpoints.length, pt endpoints i ∈ boxPts box

theorem EdgesOk.nonempty {box : Box} {edges : List Edge} {endpoints : List Point} (h : EdgesOk box edges endpoints) :
    endpoints ≠ [] := by
  intro q
  have := h.lft 0 (List.length_pos_iff.mpr h.ne)
  rw [q] at this; simp at this

theorem sizeOrOne_pos {a b : ℚ} (h : a ≤ b) : 0 < sizeOrOne a b := by
  unfold sizeOrOne
  split_ifs with q
  · norm_num
  · have : b - a ≠ 0 := q
    rcases lt_or_eq_of_le h with w | w
    · linarith
    · exact absurd (by linarith) this

theorem edgeAt_append {l l' : List Edge} {i : ℕ} (h : i < l.length) : edgeAt (l ++ l') i = edgeAt l i := by
  unfold edgeAt; rw [List.getD_append _ _ _ _ h]

theorem pt_append {l l' : List Point} {i : ℕ} (h : i < l.length) : pt (l ++ l') i = pt l i := by
  unfold pt; rw [List.getD_append _ _ _ _ h]

theorem pt_mem {l : List Point} {i : ℕ} (h : i < l.length) : pt l i ∈ l := by
  unfold pt; rw [List.getD_eq_getElem _ _ h]; exact List.getElem_mem h

/-- The shear, the lines of the edges. -/
def frameCtx (edges : List Edge) (endpoints : List Point) (ε : ℚ) : Ctx where
  P := ∅
  ε := ε
  N := 0
  F := 0
  K := fun e => ((pt endpoints (edgeAt edges e).right).y - (pt endpoints (edgeAt edges e).left).y) /
    (((pt endpoints (edgeAt edges e).right).x + ε * (pt endpoints (edgeAt edges e).right).y) -
      ((pt endpoints (edgeAt edges e).left).x + ε * (pt endpoints (edgeAt edges e).left).y))
  C := fun e => (pt endpoints (edgeAt edges e).left).y -
    ((pt endpoints (edgeAt edges e).right).y - (pt endpoints (edgeAt edges e).left).y) /
    (((pt endpoints (edgeAt edges e).right).x + ε * (pt endpoints (edgeAt edges e).right).y) -
      ((pt endpoints (edgeAt edges e).left).x + ε * (pt endpoints (edgeAt edges e).left).y)) *
      ((pt endpoints (edgeAt edges e).left).x + ε * (pt endpoints (edgeAt edges e).left).y)
  A := fun _ => ⟨0, 0⟩
  B := fun _ => ⟨0, 0⟩

theorem frame_onL {edges : List Edge} {endpoints : List Point} {ε : ℚ} (e : ℕ) :
    (frameCtx edges endpoints ε).On e (pt endpoints (edgeAt edges e).left) := by
  unfold Ctx.On Ctx.f Ctx.X frameCtx
  simp only
  ring

theorem frame_onR {edges : List Edge} {endpoints : List Point} {ε : ℚ} {e : ℕ}
    (h : (frameCtx edges endpoints ε).X (pt endpoints (edgeAt edges e).left) <
      (frameCtx edges endpoints ε).X (pt endpoints (edgeAt edges e).right)) :
    (frameCtx edges endpoints ε).On e (pt endpoints (edgeAt edges e).right) := by
  unfold Ctx.On Ctx.f
  unfold Ctx.X frameCtx at *
  simp only at *
  have : (pt endpoints (edgeAt edges e).right).x + ε * (pt endpoints (edgeAt edges e).right).y -
    ((pt endpoints (edgeAt edges e).left).x + ε * (pt endpoints (edgeAt edges e).left).y) ≠ 0 := by
    intro q; linarith
  have k := div_mul_cancel₀ ((pt endpoints (edgeAt edges e).right).y - (pt endpoints (edgeAt edges e).left).y) this
  generalize ((pt endpoints (edgeAt edges e).right).y - (pt endpoints (edgeAt edges e).left).y) /
    ((pt endpoints (edgeAt edges e).right).x + ε * (pt endpoints (edgeAt edges e).right).y -
    ((pt endpoints (edgeAt edges e).left).x + ε * (pt endpoints (edgeAt edges e).left).y)) = K at *
  linear_combination -k

/-- The geometry with a shear and bounds. -/
def frame (box : Box) (edges : List Edge) (endpoints : List Point) (ε x0 x1 y0 y1 : ℚ) : Geo where
  edges := edges ++ [⟨true, endpoints.length, endpoints.length + 1⟩, ⟨false, endpoints.length + 2, endpoints.length + 3⟩]
  endpoints := endpoints ++ boxCorners box
  n := edges.length
  k := endpoints.length
  xv := fun i => if i < endpoints.length then (frameCtx edges endpoints ε).X (pt endpoints i)
    else if i = endpoints.length + 2 then x0 else x1
  yv := fun i => (pt endpoints i).y
  K := fun e => if e < edges.length then (frameCtx edges endpoints ε).K e else 0
  C := fun e => if e < edges.length then (frameCtx edges endpoints ε).C e else if e = edges.length then y1 else y0

section
variable {box : Box} {edges : List Edge} {endpoints : List Point} {ε x0 x1 y0 y1 : ℚ}

theorem frame_xv {i : ℕ} (h : i < endpoints.length) : (frame box edges endpoints ε x0 x1 y0 y1).xv i =
    (frameCtx edges endpoints ε).X (pt endpoints i) := if_pos h

theorem frame_x0 : (frame box edges endpoints ε x0 x1 y0 y1).xv (endpoints.length + 2) = x0 := by
  unfold frame; simp

theorem frame_x1 : (frame box edges endpoints ε x0 x1 y0 y1).xv (endpoints.length + 3) = x1 := by
  unfold frame; simp

theorem frame_f {e : ℕ} (h : e < edges.length) (t : ℚ) : (frame box edges endpoints ε x0 x1 y0 y1).f e t =
    (frameCtx edges endpoints ε).f e t := by
  unfold Geo.f Ctx.f frame
  simp only [h, if_true]

theorem frame_top (t : ℚ) : (frame box edges endpoints ε x0 x1 y0 y1).f edges.length t = y1 := by
  unfold Geo.f frame
  simp

theorem frame_bot (t : ℚ) : (frame box edges endpoints ε x0 x1 y0 y1).f (edges.length + 1) t = y0 := by
  unfold Geo.f frame
  simp

theorem frame_lft {e : ℕ} (h : e < edges.length) : (frame box edges endpoints ε x0 x1 y0 y1).lft e =
    (edgeAt edges e).left := by
  unfold Geo.lft frame; simp only; rw [edgeAt_append h]

theorem frame_rgt {e : ℕ} (h : e < edges.length) : (frame box edges endpoints ε x0 x1 y0 y1).rgt e =
    (edgeAt edges e).right := by
  unfold Geo.rgt frame; simp only; rw [edgeAt_append h]

theorem frame_pt {i : ℕ} (h : i < endpoints.length) : pt (frame box edges endpoints ε x0 x1 y0 y1).endpoints i =
    pt endpoints i := pt_append h

theorem frame_pt2 : pt (frame box edges endpoints ε x0 x1 y0 y1).endpoints (endpoints.length + 2) =
    ⟨box.minX - sizeOrOne box.minX box.maxX, box.minY - sizeOrOne box.minY box.maxY⟩ := by
  unfold frame pt; simp only
  rw [List.getD_append_right _ _ _ _ (by omega)]
  simp [boxCorners]

theorem frame_pt3 : pt (frame box edges endpoints ε x0 x1 y0 y1).endpoints (endpoints.length + 3) =
    ⟨box.maxX + sizeOrOne box.minX box.maxX, box.minY - sizeOrOne box.minY box.maxY⟩ := by
  unfold frame pt; simp only
  rw [List.getD_append_right _ _ _ _ (by omega)]
  simp [boxCorners]

theorem frame_good (h : EdgesOk box edges endpoints)
    (hm : ∀ i < endpoints.length, ∀ j < endpoints.length, pt endpoints i < pt endpoints j →
      (frameCtx edges endpoints ε).X (pt endpoints i) < (frameCtx edges endpoints ε).X (pt endpoints j))
    (hx : ∀ i < endpoints.length, x0 < (frameCtx edges endpoints ε).X (pt endpoints i) ∧
      (frameCtx edges endpoints ε).X (pt endpoints i) < x1)
    (hy : ∀ i < endpoints.length, y0 < (pt endpoints i).y ∧ (pt endpoints i).y < y1) :
    (frame box edges endpoints ε x0 x1 y0 y1).Good := by
  set c := frameCtx edges endpoints ε with hc
  have hlen : 0 < endpoints.length := List.length_pos_iff.mpr h.nonempty
  have hx01 : x0 < x1 := (hx 0 hlen).1.trans (hx 0 hlen).2
  have hy01 : y0 < y1 := (hy 0 hlen).1.trans (hy 0 hlen).2
  have hb0 := h.box 0 hlen
  have hbx : box.minX ≤ box.maxX := hb0.1.trans hb0.2.1
  have sx := sizeOrOne_pos hbx
  have eX : ∀ e < edges.length, c.X (pt endpoints (edgeAt edges e).left) < c.X (pt endpoints (edgeAt edges e).right) :=
    fun e he => hm _ (h.lft e he) _ (h.rgt e he) (h.lt e he)
  -- the order of points
  have ltc : ∀ i < endpoints.length, ∀ j < endpoints.length, pt endpoints i < pt endpoints j ↔
      c.X (pt endpoints i) < c.X (pt endpoints j) := by
    intro i hi j hj
    refine ⟨hm i hi j hj, fun q => ?_⟩
    rcases lt_trichotomy (pt endpoints i) (pt endpoints j) with w | w | w
    · exact w
    · rw [w] at q; exact absurd q (lt_irrefl _)
    · exact absurd (hm j hj i hi w) q.asymm
  have V2 : ∀ i < endpoints.length, pt (frame box edges endpoints ε x0 x1 y0 y1).endpoints (endpoints.length + 2) <
      pt endpoints i := by
    intro i hi
    rw [frame_pt2, Point.lt_iff]
    left; have := (h.box i hi).1; simp only; linarith
  have V3 : ∀ i < endpoints.length, pt endpoints i <
      pt (frame box edges endpoints ε x0 x1 y0 y1).endpoints (endpoints.length + 3) := by
    intro i hi
    rw [frame_pt3, Point.lt_iff]
    left; have := (h.box i hi).2.1; simp only; linarith
  have V23 : pt (frame box edges endpoints ε x0 x1 y0 y1).endpoints (endpoints.length + 2) <
      pt (frame box edges endpoints ε x0 x1 y0 y1).endpoints (endpoints.length + 3) := (V2 0 hlen).trans (V3 0 hlen)
  have LT : ∀ i j, (frame box edges endpoints ε x0 x1 y0 y1).V i → (frame box edges endpoints ε x0 x1 y0 y1).V j →
      (pt (frame box edges endpoints ε x0 x1 y0 y1).endpoints i < pt (frame box edges endpoints ε x0 x1 y0 y1).endpoints j ↔
      (frame box edges endpoints ε x0 x1 y0 y1).xv i < (frame box edges endpoints ε x0 x1 y0 y1).xv j) := by
    have k : (frame box edges endpoints ε x0 x1 y0 y1).k = endpoints.length := rfl
    intro i j hi hj
    unfold Geo.V at hi hj
    rw [k] at hi hj
    rcases hi with hi | rfl | rfl <;> rcases hj with hj | rfl | rfl
    · rw [frame_pt hi, frame_pt hj, frame_xv hi, frame_xv hj]; exact ltc i hi j hj
    · rw [frame_pt hi, frame_xv hi, frame_x0]
      exact ⟨fun q => absurd q (V2 i hi).asymm, fun q => absurd q (hx i hi).1.asymm⟩
    · rw [frame_pt hi, frame_xv hi, frame_x1]
      exact ⟨fun _ => (hx i hi).2, fun _ => V3 i hi⟩
    · rw [frame_pt hj, frame_xv hj, frame_x0]
      exact ⟨fun _ => (hx j hj).1, fun _ => V2 j hj⟩
    · simp only [lt_irrefl]
    · rw [frame_x0, frame_x1]; exact ⟨fun _ => hx01, fun _ => V23⟩
    · rw [frame_pt hj, frame_xv hj, frame_x1]
      exact ⟨fun q => absurd q (V3 j hj).asymm, fun q => absurd q (hx j hj).2.asymm⟩
    · rw [frame_x0, frame_x1]; exact ⟨fun q => absurd q V23.asymm, fun q => absurd q hx01.asymm⟩
    · simp only [lt_irrefl]
  have EQ : ∀ i j, (frame box edges endpoints ε x0 x1 y0 y1).V i → (frame box edges endpoints ε x0 x1 y0 y1).V j →
      (pt (frame box edges endpoints ε x0 x1 y0 y1).endpoints i = pt (frame box edges endpoints ε x0 x1 y0 y1).endpoints j ↔
      (frame box edges endpoints ε x0 x1 y0 y1).xv i = (frame box edges endpoints ε x0 x1 y0 y1).xv j) := by
    intro i j hi hj
    have a := LT i j hi hj
    have b := LT j i hj hi
    constructor
    · intro q
      rw [q] at a b
      exact le_antisymm (not_lt.mp fun w => lt_irrefl _ (b.mpr w)) (not_lt.mp fun w => lt_irrefl _ (a.mpr w))
    · intro q
      rw [q] at a b
      exact le_antisymm (not_lt.mp fun w => lt_irrefl _ (b.mp w)) (not_lt.mp fun w => lt_irrefl _ (a.mp w))
  have OR : ∀ e < edges.length, ∀ i < endpoints.length,
      (edgeAt (frame box edges endpoints ε x0 x1 y0 y1).edges e).orientationOf
        (pt (frame box edges endpoints ε x0 x1 y0 y1).endpoints i) (frame box edges endpoints ε x0 x1 y0 y1).endpoints =
      orient (pt endpoints (edgeAt edges e).left) (pt endpoints (edgeAt edges e).right) (pt endpoints i) := by
    intro e he i hi
    have a : edgeAt (frame box edges endpoints ε x0 x1 y0 y1).edges e = edgeAt edges e := edgeAt_append he
    unfold Edge.orientationOf
    rw [a, frame_pt hi, frame_pt (h.lft e he), frame_pt (h.rgt e he)]
  have ON : ∀ e < edges.length, ∀ i < endpoints.length, _ := fun e he i hi =>
    Ctx.orient_on (c := c) (q := pt endpoints i) (frame_onL e) (frame_onR (eX e he)) (eX e he)
  have SPN : ∀ e < edges.length, ∀ t, (frame box edges endpoints ε x0 x1 y0 y1).Sp e t →
      c.X (pt endpoints (edgeAt edges e).left) ≤ t ∧ t ≤ c.X (pt endpoints (edgeAt edges e).right) := by
    intro e he t ht
    have := ht he
    rw [frame_lft he, frame_rgt he, frame_xv (h.lft e he), frame_xv (h.rgt e he)] at this
    exact this
  exact
    { lt := LT
      eq := EQ
      inx := fun i hi => by
        have k : (frame box edges endpoints ε x0 x1 y0 y1).k = endpoints.length := rfl
        rw [k] at hi ⊢
        rw [frame_x0, frame_x1, frame_xv hi]; exact hx i hi
      box := by
        have k : (frame box edges endpoints ε x0 x1 y0 y1).k = endpoints.length := rfl
        rw [k, frame_x0, frame_x1]; exact hx01
      lft := fun e he => by rw [frame_lft he]; exact h.lft e he
      rgt := fun e he => by rw [frame_rgt he]; exact h.rgt e he
      pos := fun e he => by
        rw [frame_lft he, frame_rgt he, frame_xv (h.lft e he), frame_xv (h.rgt e he)]; exact eX e he
      onL := fun e he => by
        rw [frame_lft he, frame_xv (h.lft e he), frame_f he]; exact frame_onL e
      onR := fun e he => by
        rw [frame_rgt he, frame_xv (h.rgt e he), frame_f he]; exact frame_onR (eX e he)
      yeq := fun i hi j hj q => by
        have := (EQ i j (Or.inl hi) (Or.inl hj)).mpr q
        rw [frame_pt hi, frame_pt hj] at this
        show (pt endpoints i).y = (pt endpoints j).y
        rw [this]
      ccw := fun e he i hi => by
        rw [OR e he i hi, frame_f he, frame_xv hi]; exact (ON e he i hi).1
      cw := fun e he i hi => by
        rw [OR e he i hi, frame_f he, frame_xv hi]; exact (ON e he i hi).2.1
      nc := fun i hi j hj hij t si sj q => by
        have si := SPN i hi t si
        have sj := SPN j hj t sj
        rw [frame_f hi, frame_f hj] at q
        -- the common point
        have hX : c.X ⟨t - ε * c.f i t, c.f i t⟩ = t := by
          show t - ε * c.f i t + ε * c.f i t = t
          ring
        have oi : c.On i ⟨t - ε * c.f i t, c.f i t⟩ := by unfold Ctx.On; rw [hX]
        have oj : c.On j ⟨t - ε * c.f i t, c.f i t⟩ := by unfold Ctx.On; rw [hX]; exact q
        have m1 := (mem_seg_on (frame_onL i) (frame_onR (eX i hi)) (eX i hi)).mpr ⟨oi, by rw [hX]; exact si⟩
        have m2 := (mem_seg_on (frame_onL j) (frame_onR (eX j hj)) (eX j hj)).mpr ⟨oj, by rw [hX]; exact sj⟩
        rw [frame_lft hi, frame_rgt hi, frame_xv (h.lft i hi), frame_xv (h.rgt i hi)]
        rcases h.apart i hi j hj hij _ m1 m2 with w | w
        · left; rw [← w]; exact hX.symm
        · right; rw [← w]; exact hX.symm
      own := fun i hi => by
        obtain ⟨e, he, q⟩ := h.own i hi
        exact ⟨e, he, by rw [frame_lft he, frame_rgt he]; exact q⟩
      top := fun i hi => by
        show (pt endpoints i).y < (frame box edges endpoints ε x0 x1 y0 y1).f edges.length _
        rw [frame_top]; exact (hy i hi).2
      bot := fun i hi => by
        show (frame box edges endpoints ε x0 x1 y0 y1).f (edges.length + 1) _ < (pt endpoints i).y
        rw [frame_bot]; exact (hy i hi).1
      tb := fun t => by
        show (frame box edges endpoints ε x0 x1 y0 y1).f (edges.length + 1) _ <
          (frame box edges endpoints ε x0 x1 y0 y1).f edges.length _
        rw [frame_bot, frame_top]; exact hy01 }

end

end Rene.Seidel
