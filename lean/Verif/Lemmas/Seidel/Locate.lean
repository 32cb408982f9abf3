import Verif.Lemmas.Seidel.Frame

/-! The location of a point in a trapezoidation. -/

namespace Rene.Seidel
open Rene Spec Sweep

/-- A geometry where the point is among the end points. -/
structure Sees (box : Box) (edges : List Edge) (endpoints : List Point) (q : Point) (ε : ℚ) (g : Geo) : Prop where
  eps : 0 < ε
  eg : ∃ x0 x1 y0 y1, g = frame box edges endpoints ε x0 x1 y0 y1
  good : g.Good
  lt : ∀ i < endpoints.length, q < pt endpoints i ↔ (frameCtx edges endpoints ε).X q < g.xv i
  gt : ∀ i < endpoints.length, pt endpoints i < q ↔ g.xv i < (frameCtx edges endpoints ε).X q
  inBox : InBox g ((frameCtx edges endpoints ε).X q) q.y

theorem exists_sees (box : Box) (endpoints : List Point) (q : Point) :
    ∃ ε, ∀ edges, EdgesOk box edges endpoints → ∃ g, Sees box edges endpoints q ε g := by
  classical
  set P : Finset Point := insert q endpoints.toFinset with hP
  obtain ⟨ε, h0, hε⟩ := exists_eps (P ×ˢ P)
  refine ⟨ε, fun edges h => ?_⟩
  have hmono : ∀ a ∈ P, ∀ b ∈ P, a < b → (frameCtx edges endpoints ε).X a < (frameCtx edges endpoints ε).X b :=
    fun a ha b hb hab => hε ε h0 le_rfl (a, b) (Finset.mem_product.mpr ⟨ha, hb⟩) hab
  have hq : q ∈ P := Finset.mem_insert_self _ _
  have hpt : ∀ i < endpoints.length, pt endpoints i ∈ P := fun i hi =>
    Finset.mem_insert_of_mem (List.mem_toFinset.mpr (pt_mem hi))
  have hiff : ∀ a ∈ P, ∀ b ∈ P, a < b ↔ (frameCtx edges endpoints ε).X a < (frameCtx edges endpoints ε).X b := by
    intro a ha b hb
    refine ⟨hmono a ha b hb, fun w => ?_⟩
    rcases lt_trichotomy a b with z | z | z
    · exact z
    · rw [z] at w; exact absurd w (lt_irrefl _)
    · exact absurd (hmono b hb a ha z) w.asymm
  -- bounds
  have bound : ∀ F : Point → ℚ, ∃ u v : ℚ, ∀ a ∈ P, u < F a ∧ F a < v := by
    intro F
    refine ⟨(P.image F).min' ⟨_, Finset.mem_image_of_mem F hq⟩ - 1, (P.image F).max' ⟨_, Finset.mem_image_of_mem F hq⟩ + 1, ?_⟩
    intro a ha
    have l := Finset.min'_le (P.image F) _ (Finset.mem_image_of_mem F ha)
    have r := Finset.le_max' (P.image F) _ (Finset.mem_image_of_mem F ha)
    constructor <;> linarith
  obtain ⟨x0, x1, hx⟩ := bound (frameCtx edges endpoints ε).X
  obtain ⟨y0, y1, hy⟩ := bound Point.y
  refine ⟨frame box edges endpoints ε x0 x1 y0 y1, h0, ⟨x0, x1, y0, y1, rfl⟩, ?_, ?_, ?_, ?_⟩
  · exact frame_good h (fun i hi j hj => hmono _ (hpt i hi) _ (hpt j hj)) (fun i hi => hx _ (hpt i hi))
      (fun i hi => hy _ (hpt i hi))
  · intro i hi; rw [frame_xv hi]; exact hiff q hq _ (hpt i hi)
  · intro i hi; rw [frame_xv hi]; exact hiff _ (hpt i hi) q hq
  · refine ⟨?_, ?_, ?_, ?_⟩
    · show (frame box edges endpoints ε x0 x1 y0 y1).xv (endpoints.length + 2) < _
      rw [frame_x0]; exact (hx q hq).1
    · show _ < (frame box edges endpoints ε x0 x1 y0 y1).xv (endpoints.length + 3)
      rw [frame_x1]; exact (hx q hq).2
    · show (frame box edges endpoints ε x0 x1 y0 y1).f (edges.length + 1) _ < _
      rw [frame_bot]; exact (hy q hq).1
    · show _ < (frame box edges endpoints ε x0 x1 y0 y1).f edges.length _
      rw [frame_top]; exact (hy q hq).2

section
variable {box : Box} {edges : List Edge} {endpoints : List Point} {q : Point} {ε : ℚ} {g : Geo} {N : Nodes}

theorem Sees.hedges (s : Sees box edges endpoints q ε g) : g.edges = edges ++ [⟨true, endpoints.length, endpoints.length + 1⟩,
    ⟨false, endpoints.length + 2, endpoints.length + 3⟩] := by
  obtain ⟨x0, x1, y0, y1, rfl⟩ := s.eg; rfl

theorem Sees.hendpoints (s : Sees box edges endpoints q ε g) : g.endpoints = endpoints ++ boxCorners box := by
  obtain ⟨x0, x1, y0, y1, rfl⟩ := s.eg; rfl

theorem Sees.n (s : Sees box edges endpoints q ε g) : g.n = edges.length := by
  obtain ⟨x0, x1, y0, y1, rfl⟩ := s.eg; rfl

theorem Sees.k (s : Sees box edges endpoints q ε g) : g.k = endpoints.length := by
  obtain ⟨x0, x1, y0, y1, rfl⟩ := s.eg; rfl

theorem Sees.lft (s : Sees box edges endpoints q ε g) {e : ℕ} (he : e < edges.length) : g.lft e = (edgeAt edges e).left := by
  obtain ⟨x0, x1, y0, y1, rfl⟩ := s.eg; exact frame_lft he

theorem Sees.rgt (s : Sees box edges endpoints q ε g) {e : ℕ} (he : e < edges.length) : g.rgt e = (edgeAt edges e).right := by
  obtain ⟨x0, x1, y0, y1, rfl⟩ := s.eg; exact frame_rgt he

theorem Sees.pt (s : Sees box edges endpoints q ε g) {i : ℕ} (hi : i < endpoints.length) : pt g.endpoints i = pt endpoints i := by
  rw [s.hendpoints]; exact pt_append hi

theorem Sees.xv (s : Sees box edges endpoints q ε g) {i : ℕ} (hi : i < endpoints.length) :
    g.xv i = (frameCtx edges endpoints ε).X (Seidel.pt endpoints i) := by
  obtain ⟨x0, x1, y0, y1, rfl⟩ := s.eg; exact frame_xv hi

theorem Sees.f (s : Sees box edges endpoints q ε g) {e : ℕ} (he : e < edges.length) (t : ℚ) :
    g.f e t = (frameCtx edges endpoints ε).f e t := by
  obtain ⟨x0, x1, y0, y1, rfl⟩ := s.eg; exact frame_f he t

theorem Sees.lt_lr (s : Sees box edges endpoints q ε g) (h : EdgesOk box edges endpoints) {e : ℕ} (he : e < edges.length) :
    (frameCtx edges endpoints ε).X (Seidel.pt endpoints (edgeAt edges e).left) <
      (frameCtx edges endpoints ε).X (Seidel.pt endpoints (edgeAt edges e).right) := by
  have := s.good.pos e (by rw [s.n]; exact he)
  rw [s.lft he, s.rgt he, s.xv (h.lft e he), s.xv (h.rgt e he)] at this
  exact this

/-- Points of edges. -/
theorem Sees.mem (s : Sees box edges endpoints q ε g) (h : EdgesOk box edges endpoints) {e : ℕ} (he : e < edges.length) (z : Point) :
    z ∈ seg (Seidel.pt endpoints (edgeAt edges e).left) (Seidel.pt endpoints (edgeAt edges e).right) ↔
      z.y = g.f e ((frameCtx edges endpoints ε).X z) ∧ g.xv (g.lft e) ≤ (frameCtx edges endpoints ε).X z ∧
        (frameCtx edges endpoints ε).X z ≤ g.xv (g.rgt e) := by
  rw [mem_seg_on (frame_onL e) (frame_onR (s.lt_lr h he)) (s.lt_lr h he), s.lft he, s.rgt he, s.xv (h.lft e he),
    s.xv (h.rgt e he), s.f he]
  rfl

/-- What a search for a point finds. -/
theorem Sees.search (s : Sees box edges endpoints q ε g) (h : EdgesOk box edges endpoints) (d : Dec g g.n N) :
    ∀ (fuel i : ℕ) (r : Location), locateFrom g.edges g.endpoints N q fuel i = some r →
      Walk g N ((frameCtx edges endpoints ε).X q) q.y 0 i →
      (∃ j, isLeaf N j = true ∧ Walk g N ((frameCtx edges endpoints ε).X q) q.y 0 j ∧
        r = if (trapAt N j).isComponent then .interior else .exterior) ∨
      (r = .boundary ∧ ∃ e < edges.length,
        q ∈ seg (Seidel.pt endpoints (edgeAt edges e).left) (Seidel.pt endpoints (edgeAt edges e).right))
  | 0, i, r, hr, _ => by simp [locateFrom] at hr
  | fuel + 1, i, r, hr, hw => by
    unfold locateFrom at hr
    split at hr
    · cases hr
    · next T hT =>
      left
      have hl : isLeaf N i = true := by unfold isLeaf; rw [hT]
      refine ⟨i, hl, hw, ?_⟩
      rw [trapAt_leaf hT]
      injection hr with hr; exact hr.symm
    · next p l r' hn =>
      have hin : inner N i = some (.x p l r') := by unfold inner; rw [hn]
      have hp := d.xnode i p l r' hin
      have hp' : p < endpoints.length := by rw [← s.k]; exact hp
      rw [s.pt hp'] at hr
      have e1 := s.lt p hp'
      have e2 := s.gt p hp'
      simp only [Point.ltB_iff] at hr
      split_ifs at hr with c1 c2
      · exact s.search h d fuel l r hr (hw.tail (by rw [nxt_x hin, if_pos (e1.mp c1)]))
      · exact s.search h d fuel r' r hr (hw.tail (by
          rw [nxt_x hin, if_neg (fun w => c1 (e1.mpr w)), if_pos (e2.mp c2)]))
      · right
        injection hr with hr
        refine ⟨hr.symm, ?_⟩
        have hq : q = Seidel.pt endpoints p := le_antisymm (not_lt.mp c2) (not_lt.mp c1)
        obtain ⟨e, he, w⟩ := h.own p hp'
        refine ⟨e, he, ?_⟩
        rw [hq]
        rcases w with w | w <;> rw [w]
        · exact start_mem_seg _ _
        · exact end_mem_seg _ _
    · next e b a hn =>
      have hin : inner N i = some (.y e b a) := by unfold inner; rw [hn]
      obtain ⟨he, s1, s2⟩ := d.soundY _ _ i e b a s.inBox hw hin
      have he' : e < edges.length := by rw [← s.n]; exact he
      have ho := Ctx.orient_on (q := q) (frame_onL e) (frame_onR (s.lt_lr h he')) (s.lt_lr h he')
      have hor : (edgeAt g.edges e).orientationOf q g.endpoints =
          orient (Seidel.pt endpoints (edgeAt edges e).left) (Seidel.pt endpoints (edgeAt edges e).right) q := by
        unfold Edge.orientationOf
        have a : edgeAt g.edges e = edgeAt edges e := by rw [s.hedges]; exact edgeAt_append he'
        rw [a, s.pt (h.lft e he'), s.pt (h.rgt e he')]
      rw [hor] at hr
      rw [← s.f he'] at ho
      split at hr
      · next c =>
        exact s.search h d fuel a r hr (hw.tail (by rw [nxt_y hin, if_pos (ho.1.mp c)]))
      · next c =>
        have c' := ho.2.1.mp c
        exact s.search h d fuel b r hr (hw.tail (by rw [nxt_y hin, if_neg (not_lt.mpr c'.le), if_pos c']))
      · next c =>
        right
        injection hr with hr
        exact ⟨hr.symm, e, he', (s.mem h he' q).mpr ⟨ho.2.2.mp c, s1.le, s2.le⟩⟩

/-- The point is on an edge, or in a trapezoid and on no edge. -/
theorem Sees.locate (s : Sees box edges endpoints q ε g) (h : EdgesOk box edges endpoints) (d : Dec g g.n N)
    (hs : Stops g g.n N) {fuel : ℕ} {r : Location} (hr : locateFrom g.edges g.endpoints N q fuel 0 = some r) :
    (r = .boundary ∧ ∃ e < edges.length,
        q ∈ seg (Seidel.pt endpoints (edgeAt edges e).left) (Seidel.pt endpoints (edgeAt edges e).right)) ∨
    ((∀ e < edges.length, q ∉ seg (Seidel.pt endpoints (edgeAt edges e).left) (Seidel.pt endpoints (edgeAt edges e).right)) ∧
      ∃ j, isLeaf N j = true ∧ Reg g (trapAt N j) ((frameCtx edges endpoints ε).X q) q.y ∧
        r = if (trapAt N j).isComponent then .interior else .exterior) := by
  rcases s.search h d fuel 0 r hr Relation.ReflTransGen.refl with ⟨j, h1, h2, h3⟩ | w
  · right
    have hreg := d.sound _ _ _ s.inBox h2 h1
    refine ⟨?_, j, h1, hreg, h3⟩
    intro e he hm
    obtain ⟨m1, m2, m3⟩ := (s.mem h he q).mp hm
    rw [m1] at hreg
    exact hs.notReg s.good d (by rw [s.n]; exact he) (by rw [s.n]; exact he) m2 m3 h1 hreg
  · exact Or.inl w

end

/-- The construction succeeds, and exactly the points of edges are located on the boundary. -/
theorem fromBox_correct {box : Box} {edges : List Edge} {endpoints : List Point} (h : EdgesOk box edges endpoints) :
    ∃ T, fromBox box edges endpoints = .ok T ∧ ∀ q r, T.locate q = some r → (r = .boundary ↔ ∃ e < edges.length,
      q ∈ seg (pt endpoints (edgeAt edges e).left) (pt endpoints (edgeAt edges e).right)) := by
  obtain ⟨ε, hε⟩ := exists_sees box endpoints ⟨0, 0⟩
  obtain ⟨g, s⟩ := hε edges h
  obtain ⟨N, hN, -, -⟩ := fromBox_ok s.good s.hedges s.hendpoints s.n s.k h.ne h.nonempty
  refine ⟨_, hN, ?_⟩
  intro q r hr
  obtain ⟨ε', hε'⟩ := exists_sees box endpoints q
  obtain ⟨g', s'⟩ := hε' edges h
  obtain ⟨N', hN', S, hs⟩ := fromBox_ok s'.good s'.hedges s'.hendpoints s'.n s'.k h.ne h.nonempty
  rw [hN] at hN'
  injection hN' with hN'
  rw [hN'] at hr
  rcases s'.locate h S.dec hs hr with ⟨w1, w2⟩ | ⟨w1, j, -, -, w2⟩
  · exact ⟨fun _ => w2, fun _ => w1⟩
  · constructor
    · intro w
      rw [w] at w2
      split at w2 <;> cases w2
    · rintro ⟨e, he, hm⟩; exact absurd hm (w1 e he)

end Rene.Seidel
