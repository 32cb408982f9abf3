import Verif.Lemmas.Seidel.Closing

/-! Points of the inside which are called exterior: the closing edge is over or under them. -/

namespace Rene.Seidel
open Rene Spec Sweep

theorem mem_openSeg_x {q w : Point} {y : ℚ} (h : w ∈ openSeg q ⟨q.x, y⟩) :
    w.x = q.x ∧ ((y < q.y ∧ y < w.y ∧ w.y < q.y) ∨ (q.y < y ∧ q.y < w.y ∧ w.y < y) ∨ (y = q.y ∧ w.y = q.y)) := by
  obtain ⟨t, t0, t1, rfl⟩ := h
  refine ⟨by unfold lerp; simp, ?_⟩
  unfold lerp
  simp only
  rcases lt_trichotomy y q.y with k | k | k
  · left; exact ⟨k, by nlinarith, by nlinarith⟩
  · right; right; exact ⟨k, by rw [k]; ring⟩
  · right; left; exact ⟨k, by nlinarith, by nlinarith⟩

/-- A straight way from the inside which meets no edge stays inside. -/
theorem inside_along {p : Polygon} (hv : ValidPolygon p) {q z : Point} (hin : p.locate q = .interior)
    (h : ∀ w ∈ openSeg q z, w ∉ segsPts p.correctlyOrientedSegments) : ∀ w ∈ openSeg q z, p.locate w = .interior := by
  intro w hw
  have off : ∀ c ∈ polygonContours p, Disjoint (seg q w) (contourPts c) := by
    intro c hc
    refine Set.disjoint_left.mpr ?_
    rintro u ⟨t, t0, t1, rfl⟩ hu
    have hm : lerp q w t ∈ segsPts p.correctlyOrientedSegments := by
      rw [segsPts_of_sets (polygon_sets hv), segsPts_flatMap]
      exact ⟨c, hc, hu⟩
    rcases eq_or_lt_of_le t0 with e | e
    · have : lerp q w t = q := by rw [← e]; unfold lerp; refine Point.ext' ?_ ?_ <;> simp
      rw [this] at hm
      have := polygon_boundary_of_mem hv hm
      rw [hin] at this; cases this
    · refine h _ ?_ hm
      obtain ⟨s, s0, s1, rfl⟩ := hw
      refine ⟨t * s, mul_pos e s0, by nlinarith, ?_⟩
      unfold lerp
      refine Point.ext' ?_ ?_ <;> simp only <;> ring
  have key := fun c hc => C23_constant_on_segment c q w (off c hc)
  obtain ⟨k1, k2⟩ := (C24_polygon_locate p q).1.mp hin
  refine (C24_polygon_locate p w).1.mpr ⟨?_, fun c hc => ?_⟩
  · rw [← key _ (by simp [polygonContours])]; exact k1
  · rw [← key _ (by simp [polygonContours, hc])]; exact k2 c hc

section
variable {box : Box} {es : List Edge} {endpoints : List Point} {q : Point} {ε : ℚ} {g : Geo} {N : Nodes}
variable {p : Polygon} {j : ℕ}

namespace Spot
variable (S : Spot p box es endpoints q ε g N j)
include S

/-- An edge which meets the vertical line of the point, when no end point is on the line. -/
theorem meets (hv : ∀ v ∈ endpoints, v.x ≠ q.x) {i : ℕ} (hi : i < es.length) {w : Point} (hx : w.x = q.x)
    (hm : w ∈ seg (Seidel.pt endpoints (edgeAt es i).left) (Seidel.pt endpoints (edgeAt es i).right)) :
    g.xv (g.lft i) < Xe ε q ∧ Xe ε q < g.xv (g.rgt i) ∧ g.xv (g.lft i) ≤ Xe ε w ∧ Xe ε w ≤ g.xv (g.rgt i) ∧
      w.y = g.f i (Xe ε w) ∧ (g.f i (Xe ε q) < q.y ↔ w.y < q.y) ∧ (q.y < g.f i (Xe ε q) ↔ q.y < w.y) := by
  have hX : ∀ z, (frameCtx es endpoints ε).X z = Xe ε z := fun _ => rfl
  have h0 := (S.v.mem S.h hi w).mp hm
  rw [hX] at h0
  have gq := S.v.gt _ (S.h.lft i hi)
  have lq := S.v.lt _ (S.h.rgt i hi)
  rw [hX, ← S.v.lft hi] at gq
  rw [hX, ← S.v.rgt hi] at lq
  have hl := hv _ (pt_mem (S.h.lft i hi))
  have hr := hv _ (pt_mem (S.h.rgt i hi))
  have ho := S.h.lt i hi
  have a : Seidel.pt endpoints (g.lft i) < q ∧ q < Seidel.pt endpoints (g.rgt i) := by
    rw [S.v.lft hi, S.v.rgt hi]
    generalize Seidel.pt endpoints (edgeAt es i).left = L at *
    generalize Seidel.pt endpoints (edgeAt es i).right = R at *
    have hLR : L.x ≤ R.x := by
      rcases Point.lt_iff.mp ho with k | k
      exacts [k.le, k.1.le]
    obtain ⟨t, t0, t1, rfl⟩ := hm
    unfold lerp at hx
    simp only at hx
    constructor <;> rw [Point.lt_iff] <;> left
    · exact lt_of_le_of_ne (by nlinarith) hl
    · exact lt_of_le_of_ne (by nlinarith) (Ne.symm hr)
  rw [gq, lq] at a
  obtain ⟨y, _, hc⟩ := S.col hi ⟨a.1.le, a.2.le⟩
  have c1 := hc w hx
  rw [← h0.1] at c1
  have hy : w.y = y := le_antisymm (not_lt.mp fun k => lt_irrefl _ (c1.2.mpr k)) (not_lt.mp fun k => lt_irrefl _ (c1.1.mpr k))
  have c2 := hc q rfl
  rw [← hy] at c2
  exact ⟨a.1, a.2, h0.2.1, h0.2.2, h0.1, c2.2, c2.1⟩

theorem clear_below (hv : ∀ v ∈ endpoints, v.x ≠ q.x) (he : (trapAt N j).below < es.length) {y : ℚ}
    (hm : (⟨q.x, y⟩ : Point) ∈ seg (Seidel.pt endpoints (edgeAt es (trapAt N j).below).left)
      (Seidel.pt endpoints (edgeAt es (trapAt N j).below).right)) :
    ∀ w ∈ openSeg q ⟨q.x, y⟩, ∀ i < es.length,
      w ∉ seg (Seidel.pt endpoints (edgeAt es i).left) (Seidel.pt endpoints (edgeAt es i).right) := by
  intro w hw i hi hwi
  obtain ⟨e1, e2, e3, e4, e5, e6, _⟩ := S.meets hv he (w := ⟨q.x, y⟩) rfl hm
  obtain ⟨_, _, r3, r4⟩ := S.hr
  have yq : y < q.y := e6.mp r3
  obtain ⟨wx, hwy⟩ := mem_openSeg_x hw
  have hwy : y < w.y ∧ w.y < q.y := by
    rcases hwy with k | k | k
    · exact k.2
    · linarith [k.1]
    · linarith [k.1]
  obtain ⟨i1, i2, i3, i4, i5, i6, _⟩ := S.meets hv hi wx hwi
  have hf := i6.mpr hwy.2
  have hg : g.f i (Xe ε q) ≤ g.f (trapAt N j).below (Xe ε q) := by
    rcases S.gap hi i1.le i2.le with k | k
    · exact k
    · linarith
  have eps := S.v.eps
  have X1 : Xe ε ⟨q.x, y⟩ < Xe ε w := by unfold Xe; simp only; rw [wx]; nlinarith
  have X2 : Xe ε w < Xe ε q := by unfold Xe; rw [wx]; nlinarith
  -- the edge below is under the point of the way
  have hlt : g.f (trapAt N j).below (Xe ε w) < g.f i (Xe ε w) := by
    obtain ⟨y', hy', hc⟩ := S.col he ⟨e1.le, e2.le⟩
    rw [← i5]
    refine ((hc w wx).2).mpr ?_
    have c1 := hc ⟨q.x, y⟩ rfl
    rw [← e5] at c1
    have : y' ≤ y := not_lt.mp fun k => lt_irrefl _ (c1.1.mpr k)
    linarith
  have he' : (trapAt N j).below < g.n := by rw [S.v.n]; exact he
  have hi' : i < g.n := by rw [S.v.n]; exact hi
  have := S.v.good.ord (i := (trapAt N j).below) (j := i) (by omega) (by omega)
    (s := max (g.xv (g.lft (trapAt N j).below)) (g.xv (g.lft i)))
    (t := min (g.xv (g.rgt (trapAt N j).below)) (g.xv (g.rgt i))) (u := Xe ε w) (w := Xe ε q)
    (fun _ => ⟨le_max_left _ _, max_le (e1.le.trans e2.le) (i1.le.trans e2.le)⟩)
    (fun _ => ⟨le_min (e1.le.trans e2.le) (e1.le.trans i2.le), min_le_left _ _⟩)
    (fun _ => ⟨le_max_right _ _, max_le (e1.le.trans i2.le) (i1.le.trans i2.le)⟩)
    (fun _ => ⟨le_min (i1.le.trans e2.le) (i1.le.trans i2.le), min_le_right _ _⟩)
    (max_le (e3.trans X1.le) i3) (le_min (X2.le.trans e2.le) i4) hlt (max_lt e1 i1) (lt_min e2 i2)
  linarith

theorem clear_above (hv : ∀ v ∈ endpoints, v.x ≠ q.x) (he : (trapAt N j).above < es.length) {y : ℚ}
    (hm : (⟨q.x, y⟩ : Point) ∈ seg (Seidel.pt endpoints (edgeAt es (trapAt N j).above).left)
      (Seidel.pt endpoints (edgeAt es (trapAt N j).above).right)) :
    ∀ w ∈ openSeg q ⟨q.x, y⟩, ∀ i < es.length,
      w ∉ seg (Seidel.pt endpoints (edgeAt es i).left) (Seidel.pt endpoints (edgeAt es i).right) := by
  intro w hw i hi hwi
  obtain ⟨e1, e2, e3, e4, e5, _, e6⟩ := S.meets hv he (w := ⟨q.x, y⟩) rfl hm
  obtain ⟨_, _, r3, r4⟩ := S.hr
  have yq : q.y < y := e6.mp r4
  obtain ⟨wx, hwy⟩ := mem_openSeg_x hw
  have hwy : q.y < w.y ∧ w.y < y := by
    rcases hwy with k | k | k
    · linarith [k.1]
    · exact k.2
    · linarith [k.1]
  obtain ⟨i1, i2, i3, i4, i5, _, i6⟩ := S.meets hv hi wx hwi
  have hf := i6.mpr hwy.1
  have hg : g.f (trapAt N j).above (Xe ε q) ≤ g.f i (Xe ε q) := by
    rcases S.gap hi i1.le i2.le with k | k
    · linarith
    · exact k
  have eps := S.v.eps
  have X1 : Xe ε w < Xe ε ⟨q.x, y⟩ := by unfold Xe; simp only; rw [wx]; nlinarith
  have X2 : Xe ε q < Xe ε w := by unfold Xe; rw [wx]; nlinarith
  -- the edge above is over the point of the way
  have hlt : g.f i (Xe ε w) < g.f (trapAt N j).above (Xe ε w) := by
    obtain ⟨y', hy', hc⟩ := S.col he ⟨e1.le, e2.le⟩
    rw [← i5]
    refine ((hc w wx).1).mpr ?_
    have c1 := hc ⟨q.x, y⟩ rfl
    rw [← e5] at c1
    have : y ≤ y' := not_lt.mp fun k => lt_irrefl _ (c1.2.mpr k)
    linarith
  have he' : (trapAt N j).above < g.n := by rw [S.v.n]; exact he
  have hi' : i < g.n := by rw [S.v.n]; exact hi
  have := S.v.good.ord (i := i) (j := (trapAt N j).above) (by omega) (by omega)
    (s := max (g.xv (g.lft (trapAt N j).above)) (g.xv (g.lft i)))
    (t := min (g.xv (g.rgt (trapAt N j).above)) (g.xv (g.rgt i))) (u := Xe ε w) (w := Xe ε q)
    (fun _ => ⟨le_max_right _ _, max_le (e1.le.trans i2.le) (i1.le.trans i2.le)⟩)
    (fun _ => ⟨le_min (i1.le.trans e2.le) (i1.le.trans i2.le), min_le_right _ _⟩)
    (fun _ => ⟨le_max_left _ _, max_le (e1.le.trans e2.le) (i1.le.trans e2.le)⟩)
    (fun _ => ⟨le_min (e1.le.trans e2.le) (e1.le.trans i2.le), min_le_left _ _⟩)
    (max_le (e1.le.trans X2.le) i3) (le_min (X1.le.trans e4) i4) hlt (max_lt e1 i1) (lt_min e2 i2)
  linarith

/-- The points of the inside which are not called so see the closing edge over or under them. -/
theorem closing_seen (hcomp : (trapAt N j).isComponent =
      ((edgeAt g.edges (trapAt N j).below).interiorToLeft && !(edgeAt g.edges (trapAt N j).above).interiorToLeft))
    (hin : p.locate q = .interior) (hv : ∀ v ∈ endpoints, v.x ≠ q.x) (hf : (trapAt N j).isComponent = false) :
    ∃ c ∈ polygonContours p, ∃ z ∈ openSeg (lastOf c) (c.vertices.headD ⟨0, 0⟩), z.x = q.x ∧
      ∀ w ∈ openSeg q z, p.locate w = .interior := by
  have hD := S.inside_iff.mp hin
  have hb : (trapAt N j).below < es.length := by
    rcases (S.d.edg j S.hj).2 with k | k
    · rwa [S.v.n] at k
    · have := S.frameB k; rw [hD] at this; cases this
  have ha : (trapAt N j).above < es.length := by
    rcases (S.d.edg j S.hj).1 with k | k
    · rwa [S.v.n] at k
    · have := S.frameA k; rw [hD] at this; cases this
  obtain ⟨cb, tb, sb, kb, rb, stb⟩ := S.o.stands _ hb
  obtain ⟨ca, ta, sa, ka, ra, sta⟩ := S.o.stands _ ha
  have db := S.dirB hb ⟨stb.lo, stb.hi⟩ (rb.sub stb.so)
  have da := S.dirA ha ⟨sta.lo, sta.hi⟩ (ra.sub sta.so)
  rw [hcomp, S.v.hedges, edgeAt_append hb, edgeAt_append ha, stb.flag, sta.flag, db, da, hD] at hf
  have fin : ∀ b (hb : b < es.length) (c : Contour) (t : Orientation) (s : Segment), Role p c t →
      Stands endpoints c t (edgeAt es b) s true → g.Sp b (Xe ε q) →
      (∀ y, (⟨q.x, y⟩ : Point) ∈ seg (Seidel.pt endpoints (edgeAt es b).left) (Seidel.pt endpoints (edgeAt es b).right) →
        ∀ w ∈ openSeg q ⟨q.x, y⟩, ∀ i < es.length,
          w ∉ seg (Seidel.pt endpoints (edgeAt es i).left) (Seidel.pt endpoints (edgeAt es i).right)) →
      ∃ c ∈ polygonContours p, ∃ z ∈ openSeg (lastOf c) (c.vertices.headD ⟨0, 0⟩), z.x = q.x ∧
        ∀ w ∈ openSeg q z, p.locate w = .interior := by
    intro b hb c t s hr st sp hcl
    obtain ⟨y, hy, _⟩ := S.col hb (sp (by rw [S.v.n]; exact hb))
    have hv' : ∀ v ∈ endpoints, (⟨q.x, y⟩ : Point) ≠ v := fun v hvm e => hv v hvm (by rw [← e])
    have ho := mem_openSeg_of hy (hv' _ (pt_mem (S.h.lft b hb))) (hv' _ (pt_mem (S.h.rgt b hb)))
    refine ⟨c, hr.mem, ⟨q.x, y⟩, ?_, rfl, inside_along S.vp hin ?_⟩
    · rw [st.lo, st.hi] at ho
      have ho : (⟨q.x, y⟩ : Point) ∈ openSeg s.start s.end := by
        rcases lo_hi s with ⟨a1, a2, _⟩ | ⟨a1, a2, _⟩ <;> rw [a1, a2] at ho
        · exact ho
        · rw [openSeg_comm]; exact ho
      rcases st.close rfl with ⟨a1, a2⟩ | ⟨a1, a2⟩ <;> rw [a1, a2] at ho
      · exact ho
      · rw [openSeg_comm]; exact ho
    · rintro w hw ⟨s', hs', hm⟩
      obtain ⟨i, hi, iL, iR⟩ := S.o.cover s' hs'
      rw [segPts_eq, ← iL, ← iR] at hm
      exact hcl y hy w hw i hi hm
  rcases kb with _ | _
  · rcases ka with _ | _
    · cases hf
    · exact fin _ ha _ _ _ ra sta S.spA fun y hy => S.clear_above hv ha hy
  · exact fin _ hb _ _ _ rb stb S.spB fun y hy => S.clear_below hv hb hy

end Spot
end

theorem fromBox_closing_seen {p : Polygon} (hv : ValidPolygon p) {box : Box} {es : List Edge} {endpoints : List Point}
    (h : EdgesOk box es endpoints) (o : OfPolygon p es endpoints) {T : Trapezoidation} (hT : fromBox box es endpoints = .ok T)
    {q : Point} (hin : p.locate q = .interior) (hx : ∀ v ∈ endpoints, v.x ≠ q.x) (hr : T.locate q = some .exterior) :
    ∃ c ∈ polygonContours p, ∃ z ∈ openSeg (lastOf c) (c.vertices.headD ⟨0, 0⟩), z.x = q.x ∧
      ∀ w ∈ openSeg q z, p.locate w = .interior := by
  obtain ⟨ε, hε⟩ := exists_sees box endpoints q
  obtain ⟨g, s⟩ := hε es h
  obtain ⟨N, hN, S, hs⟩ := fromBox_ok s.good s.hedges s.hendpoints s.n s.k h.ne h.nonempty
  have k := fromBox_comp hN
  rw [hT] at hN
  injection hN with hN
  subst hN
  rcases s.locate h S.dec hs hr with ⟨w1, _⟩ | ⟨w1, j, w2, w3, w4⟩
  · cases w1
  · have sp : Spot p box es endpoints q ε g N j := ⟨hv, o, s, h, S.dec, hs, w2, w3, w1⟩
    refine sp.closing_seen (k j w2) hin hx ?_
    split_ifs at w4 with u
    exact Bool.eq_false_iff.mpr u

end Rene.Seidel
