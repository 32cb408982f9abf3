import Verif.Lemmas.Seidel.Inside

/-! Points over or under the closing edge of a contour of a polygon. -/

namespace Rene.Seidel
open Rene Spec Sweep

section
variable {box : Box} {es : List Edge} {endpoints : List Point} {q : Point} {ε : ℚ} {g : Geo} {N : Nodes}
variable {p : Polygon} {j : ℕ}

namespace Spot
variable (S : Spot p box es endpoints q ε g N j)
include S

/-- The point of the edge on the vertical line of the point. -/
theorem col {i : ℕ} (hi : i < es.length) (h1 : g.xv (g.lft i) ≤ Xe ε q ∧ Xe ε q ≤ g.xv (g.rgt i)) :
    ∃ y, (⟨q.x, y⟩ : Point) ∈ seg (Seidel.pt endpoints (edgeAt es i).left) (Seidel.pt endpoints (edgeAt es i).right) ∧
      ∀ z : Point, z.x = q.x → ((z.y < g.f i (Xe ε z) ↔ z.y < y) ∧ (g.f i (Xe ε z) < z.y ↔ y < z.y)) := by
  have hX : ∀ z, (frameCtx es endpoints ε).X z = Xe ε z := fun _ => rfl
  have hlt := S.v.lt_lr S.h hi
  have n := S.xne hi
  have l1 := (S.v.gt _ (S.h.lft i hi)).mpr (by
    rw [hX, ← S.v.lft hi]; exact lt_of_le_of_ne h1.1 (Ne.symm n.1))
  have r1 := (S.v.lt _ (S.h.rgt i hi)).mpr (by
    rw [hX, ← S.v.rgt hi]; exact lt_of_le_of_ne h1.2 n.2)
  have hq := S.hq i hi
  have k := fun z => Ctx.cr_on (q := z) (frame_onL (ε := ε) (endpoints := endpoints) i) (frame_onR hlt)
  generalize Seidel.pt endpoints (edgeAt es i).left = L at *
  generalize Seidel.pt endpoints (edgeAt es i).right = R at *
  rw [Point.lt_iff] at l1 r1
  have lx : L.x ≤ q.x := by rcases l1 with w | w; exacts [w.le, w.1.le]
  have rx : q.x ≤ R.x := by rcases r1 with w | w; exacts [w.le, w.1.le]
  have hlr : L.x < R.x := by
    refine lt_of_le_of_ne (lx.trans rx) fun e => hq ?_
    have e1 : L.x = q.x := le_antisymm lx (by rw [e]; exact rx)
    have e2 : q.x = R.x := e1.symm.trans e
    have y1 : L.y < q.y := by rcases l1 with w | w; exacts [absurd w (by rw [e1]; exact lt_irrefl _), w.2]
    have y2 : q.y < R.y := by rcases r1 with w | w; exacts [absurd w (by rw [e2]; exact lt_irrefl _), w.2]
    have hd : 0 < R.y - L.y := by linarith
    refine ⟨(q.y - L.y) / (R.y - L.y), by apply div_nonneg <;> linarith, by rw [div_le_one hd]; linarith, ?_⟩
    unfold lerp
    refine Point.ext' ?_ ?_ <;> simp only
    · rw [e, e2]; ring
    · field_simp; ring
  have hd : 0 < R.x - L.x := by linarith
  refine ⟨L.y + (q.x - L.x) / (R.x - L.x) * (R.y - L.y),
    ⟨(q.x - L.x) / (R.x - L.x), by apply div_nonneg <;> linarith, by rw [div_le_one hd]; linarith, ?_⟩, fun z hz => ?_⟩
  · unfold lerp
    refine Point.ext' ?_ ?_ <;> simp only
    field_simp; ring
  · have kz := k z
    have e : cr L R z = (R.x - L.x) * (z.y - (L.y + (q.x - L.x) / (R.x - L.x) * (R.y - L.y))) := by
      unfold cr; rw [hz]; field_simp; ring
    rw [e, hX, hX, hX, ← S.v.f hi] at kz
    rw [hX, hX] at hlt
    have hd' : 0 < Xe ε R - Xe ε L := by linarith
    generalize L.y + (q.x - L.x) / (R.x - L.x) * (R.y - L.y) = y at *
    constructor <;> constructor <;> intro w <;> by_contra hc <;> nlinarith

/-- The edge which is seen along the vertical line is over or under the point. -/
theorem spans {b : ℕ} (hb : b < es.length) {z : Point}
    (hz : z ∈ openSeg (Seidel.pt endpoints (edgeAt es b).left) (Seidel.pt endpoints (edgeAt es b).right))
    (hx : z.x = q.x)
    (hw : ∀ w ∈ openSeg q z, ∀ e < es.length, w ∉ seg (Seidel.pt endpoints (edgeAt es e).left) (Seidel.pt endpoints (edgeAt es e).right)) :
    (g.xv (g.lft b) < Xe ε q ∧ Xe ε q < g.xv (g.rgt b)) ∧ (g.xv (g.lft b) < Xe ε z ∧ Xe ε z < g.xv (g.rgt b)) ∧
      z.y = g.f b (Xe ε z) := by
  have hX : ∀ z, (frameCtx es endpoints ε).X z = Xe ε z := fun _ => rfl
  have hlt := S.v.lt_lr S.h hb
  have hzs : z ∈ seg (Seidel.pt endpoints (edgeAt es b).left) (Seidel.pt endpoints (edgeAt es b).right) := by
    obtain ⟨t, t0, t1, e⟩ := hz; exact ⟨t, t0.le, t1.le, e⟩
  have hm := (S.v.mem S.h hb z).mp hzs
  have eL : g.xv (g.lft b) = Xe ε (Seidel.pt endpoints (edgeAt es b).left) := by
    rw [S.v.lft hb, S.v.xv (S.h.lft b hb)]; rfl
  have eR : g.xv (g.rgt b) = Xe ε (Seidel.pt endpoints (edgeAt es b).right) := by
    rw [S.v.rgt hb, S.v.xv (S.h.rgt b hb)]; rfl
  have gq := S.v.gt _ (S.h.lft b hb)
  have lq := S.v.lt _ (S.h.rgt b hb)
  have hq := S.hq b hb
  have ho := S.h.lt b hb
  have hwb := fun w h => hw w h b hb
  rw [← S.v.lft hb] at gq
  rw [← S.v.rgt hb] at lq
  rw [hX] at gq lq
  rw [hX, hX, ← eL, ← eR] at hlt
  refine ⟨?_, ?_, hm.1⟩
  · rw [← gq, ← lq, S.v.lft hb, S.v.rgt hb]
    generalize Seidel.pt endpoints (edgeAt es b).left = L at *
    generalize Seidel.pt endpoints (edgeAt es b).right = R at *
    obtain ⟨t, t0, t1, e⟩ := hz
    have ex : z.x = L.x + t * (R.x - L.x) := by rw [e]; rfl
    have ey : z.y = L.y + t * (R.y - L.y) := by rw [e]; rfl
    rw [Point.lt_iff] at ho
    rcases ho with ho | ⟨ho, ho'⟩
    · constructor <;> rw [Point.lt_iff] <;> left <;> nlinarith
    · exfalso
      have x1 : L.x = q.x := by rw [← hx, ex, ho]; ring
      have x2 : R.x = q.x := by rw [← ho, x1]
      have hd : 0 < R.y - L.y := by linarith
      have z1 : L.y < z.y := by nlinarith
      have z2 : z.y < R.y := by nlinarith
      by_cases c1 : q.y < L.y
      · refine hwb L ?_ ⟨0, le_rfl, by norm_num, by unfold lerp; refine Point.ext' ?_ ?_ <;> simp⟩
        have hd' : 0 < z.y - q.y := by linarith
        refine ⟨(L.y - q.y) / (z.y - q.y), div_pos (by linarith) hd', by rw [div_lt_one hd']; linarith, ?_⟩
        unfold lerp
        refine Point.ext' ?_ ?_ <;> simp only
        · rw [x1, hx]; ring
        · field_simp; ring
      by_cases c2 : R.y < q.y
      · refine hwb R ?_ ⟨1, by norm_num, le_rfl, by unfold lerp; refine Point.ext' ?_ ?_ <;> simp⟩
        have hd' : 0 < q.y - z.y := by linarith
        have hd'' : z.y - q.y ≠ 0 := by linarith
        refine ⟨(q.y - R.y) / (q.y - z.y), div_pos (by linarith) hd', by rw [div_lt_one hd']; linarith, ?_⟩
        unfold lerp
        refine Point.ext' ?_ ?_ <;> simp only
        · rw [x2, hx]; ring
        · field_simp; ring
      refine hq ⟨(q.y - L.y) / (R.y - L.y), by apply div_nonneg <;> linarith, by rw [div_le_one hd]; linarith, ?_⟩
      unfold lerp
      refine Point.ext' ?_ ?_ <;> simp only
      · rw [x1, x2]; ring
      · field_simp; ring
  · obtain ⟨t, t0, t1, e⟩ := hz
    have : Xe ε z = g.xv (g.lft b) + t * (g.xv (g.rgt b) - g.xv (g.lft b)) := by
      rw [e, Xe_lerp, eL, eR]
    constructor <;> nlinarith

/-- The edge under the point, when no other edge is between. -/
theorem vertical_below {b : ℕ} (hb : b < es.length) {z : Point}
    (hz : z ∈ openSeg (Seidel.pt endpoints (edgeAt es b).left) (Seidel.pt endpoints (edgeAt es b).right))
    (hx : z.x = q.x) (hy : z.y < q.y)
    (hw : ∀ w ∈ openSeg q z, ∀ e < es.length, w ∉ seg (Seidel.pt endpoints (edgeAt es e).left) (Seidel.pt endpoints (edgeAt es e).right))
    (he : (trapAt N j).below < es.length) : (trapAt N j).below = b := by
  have hX : ∀ z, (frameCtx es endpoints ε).X z = Xe ε z := fun _ => rfl
  obtain ⟨⟨q1, q2⟩, ⟨z1, z2⟩, hzy⟩ := S.spans hb hz hx hw
  obtain ⟨_, _, r3, r4⟩ := S.hr
  have hb' : b < g.n := by rw [S.v.n]; exact hb
  have he' : (trapAt N j).below < g.n := by rw [S.v.n]; exact he
  obtain ⟨p1, p2⟩ := S.spB he'
  obtain ⟨y, hys, hc⟩ := S.col he ⟨p1, p2⟩
  generalize hE : (trapAt N j).below = e at *
  have yq : y < q.y := ((hc q rfl).2).mp r3
  have hXz : Xe ε z < Xe ε q := by unfold Xe; rw [hx]; have := S.v.eps; nlinarith
  -- the edge is not between
  have hyz : y ≤ z.y := by
    by_contra hn
    push Not at hn
    have hd : 0 < q.y - z.y := by linarith
    have hd' : z.y - q.y ≠ 0 := by linarith
    refine hw ⟨q.x, y⟩ ⟨(q.y - y) / (q.y - z.y), div_pos (by linarith) hd, by rw [div_lt_one hd]; linarith, ?_⟩ e he hys
    unfold lerp
    refine Point.ext' ?_ ?_ <;> simp only
    · rw [hx]; ring
    · field_simp; ring
  have hm := (S.v.mem S.h he _).mp hys
  rw [hX] at hm
  have hXy : Xe ε ⟨q.x, y⟩ ≤ Xe ε z := by unfold Xe; simp only; rw [hx]; have := S.v.eps; nlinarith
  have fe : g.f e (Xe ε z) ≤ z.y := by
    by_contra hn
    push Not at hn
    have := ((hc z hx).1).mp hn
    linarith
  by_contra hne
  have ze : g.Sp e (Xe ε z) := fun _ => ⟨hm.2.1.trans hXy, hXz.le.trans p2⟩
  have zb : g.Sp b (Xe ε z) := fun _ => ⟨z1.le, z2.le⟩
  have fb : g.f b (Xe ε q) < q.y := by
    obtain ⟨y', hy', hc'⟩ := S.col hb ⟨q1.le, q2.le⟩
    refine ((hc' q rfl).2).mpr ?_
    have a1 := (hc' z hx).1
    have a2 := (hc' z hx).2
    rw [← hzy] at a1 a2
    have : y' ≤ z.y := not_lt.mp fun w => lt_irrefl _ (a1.mpr w)
    linarith
  -- the order at the point
  have ho : g.f b (Xe ε q) < g.f e (Xe ε q) := by
    have hle : g.f b (Xe ε q) ≤ g.f e (Xe ε q) := by
      rcases S.gap hb q1.le q2.le with w | w
      · rwa [hE] at w
      · linarith
    refine lt_of_le_of_ne hle fun w => hne ?_
    exact (S.v.same hb he (S.v.free S.h S.hq) (fun _ => ⟨q1.le, q2.le⟩) (fun _ => ⟨p1, p2⟩) w).symm
  rcases eq_or_lt_of_le fe with w | w
  · rcases S.v.good.nc b hb' e he' (Ne.symm hne) _ zb ze (by rw [← hzy, w]) with u | u
    · linarith
    · linarith
  · -- the order at the seen point
    have hs : max (g.xv (g.lft b)) (g.xv (g.lft e)) < Xe ε z ∨ Xe ε z = g.xv (g.lft e) := by
      rcases eq_or_lt_of_le (ze he').1 with u | u
      · exact Or.inr u.symm
      · exact Or.inl (max_lt z1 u)
    rcases hs with hs | hs
    · have hqq : max (g.xv (g.lft b)) (g.xv (g.lft e)) ≤ Xe ε q := hs.le.trans hXz.le
      have := S.v.good.ord (i := b) (j := e) (by omega) (by omega) (s := max (g.xv (g.lft b)) (g.xv (g.lft e)))
        (t := Xe ε q) (u := Xe ε q) (w := Xe ε z)
        (fun _ => ⟨le_max_left _ _, hqq.trans q2.le⟩) (fun _ => ⟨q1.le, q2.le⟩)
        (fun _ => ⟨le_max_right _ _, hqq.trans p2⟩) (fun _ => ⟨p1, p2⟩) hqq le_rfl ho hs hXz
      rw [← hzy] at this
      linarith
    · have e1 : Xe ε ⟨q.x, y⟩ = Xe ε z := le_antisymm hXy (by rw [hs]; exact hm.2.1)
      have : y = z.y := by
        have := hm.1
        unfold Xe at e1
        simp only at e1
        rw [hx] at e1
        have := S.v.eps
        nlinarith
      have h2 := hm.1
      rw [e1] at h2
      simp only at h2
      linarith

/-- The edge over the point, when no other edge is between. -/
theorem vertical_above {b : ℕ} (hb : b < es.length) {z : Point}
    (hz : z ∈ openSeg (Seidel.pt endpoints (edgeAt es b).left) (Seidel.pt endpoints (edgeAt es b).right))
    (hx : z.x = q.x) (hy : q.y < z.y)
    (hw : ∀ w ∈ openSeg q z, ∀ e < es.length, w ∉ seg (Seidel.pt endpoints (edgeAt es e).left) (Seidel.pt endpoints (edgeAt es e).right))
    (he : (trapAt N j).above < es.length) : (trapAt N j).above = b := by
  have hX : ∀ z, (frameCtx es endpoints ε).X z = Xe ε z := fun _ => rfl
  obtain ⟨⟨q1, q2⟩, ⟨z1, z2⟩, hzy⟩ := S.spans hb hz hx hw
  obtain ⟨_, _, r3, r4⟩ := S.hr
  have hb' : b < g.n := by rw [S.v.n]; exact hb
  have he' : (trapAt N j).above < g.n := by rw [S.v.n]; exact he
  obtain ⟨p1, p2⟩ := S.spA he'
  obtain ⟨y, hys, hc⟩ := S.col he ⟨p1, p2⟩
  generalize hE : (trapAt N j).above = e at *
  have yq : q.y < y := ((hc q rfl).1).mp r4
  have hXz : Xe ε q < Xe ε z := by unfold Xe; rw [hx]; have := S.v.eps; nlinarith
  -- the edge is not between
  have hyz : z.y ≤ y := by
    by_contra hn
    push Not at hn
    have hd : 0 < z.y - q.y := by linarith
    refine hw ⟨q.x, y⟩ ⟨(y - q.y) / (z.y - q.y), div_pos (by linarith) hd, by rw [div_lt_one hd]; linarith, ?_⟩ e he hys
    unfold lerp
    refine Point.ext' ?_ ?_ <;> simp only
    · rw [hx]; ring
    · field_simp; ring
  have hm := (S.v.mem S.h he _).mp hys
  rw [hX] at hm
  have hXy : Xe ε z ≤ Xe ε ⟨q.x, y⟩ := by unfold Xe; simp only; rw [hx]; have := S.v.eps; nlinarith
  have fe : z.y ≤ g.f e (Xe ε z) := by
    by_contra hn
    push Not at hn
    have := ((hc z hx).2).mp hn
    linarith
  by_contra hne
  have ze : g.Sp e (Xe ε z) := fun _ => ⟨p1.trans hXz.le, hXy.trans hm.2.2⟩
  have zb : g.Sp b (Xe ε z) := fun _ => ⟨z1.le, z2.le⟩
  have fb : q.y < g.f b (Xe ε q) := by
    obtain ⟨y', hy', hc'⟩ := S.col hb ⟨q1.le, q2.le⟩
    refine ((hc' q rfl).1).mpr ?_
    have a2 := (hc' z hx).2
    rw [← hzy] at a2
    have : z.y ≤ y' := not_lt.mp fun w => lt_irrefl _ (a2.mpr w)
    linarith
  -- the order at the point
  have ho : g.f e (Xe ε q) < g.f b (Xe ε q) := by
    have hle : g.f e (Xe ε q) ≤ g.f b (Xe ε q) := by
      rcases S.gap hb q1.le q2.le with w | w
      · linarith
      · rwa [hE] at w
    refine lt_of_le_of_ne hle fun w => hne ?_
    exact S.v.same he hb (S.v.free S.h S.hq) (fun _ => ⟨p1, p2⟩) (fun _ => ⟨q1.le, q2.le⟩) w
  rcases eq_or_lt_of_le fe with w | w
  · rcases S.v.good.nc b hb' e he' (Ne.symm hne) _ zb ze (by rw [← hzy, w]) with u | u
    · linarith
    · linarith
  · -- the order at the seen point
    have hs : Xe ε z < min (g.xv (g.rgt b)) (g.xv (g.rgt e)) ∨ Xe ε z = g.xv (g.rgt e) := by
      rcases eq_or_lt_of_le (ze he').2 with u | u
      · exact Or.inr u
      · exact Or.inl (lt_min z2 u)
    rcases hs with hs | hs
    · have hqq : Xe ε q ≤ min (g.xv (g.rgt b)) (g.xv (g.rgt e)) := hXz.le.trans hs.le
      have := S.v.good.ord (i := e) (j := b) (by omega) (by omega) (s := Xe ε q)
        (t := min (g.xv (g.rgt b)) (g.xv (g.rgt e))) (u := Xe ε q) (w := Xe ε z)
        (fun _ => ⟨p1, p2⟩) (fun _ => ⟨p1.trans hqq, min_le_right _ _⟩)
        (fun _ => ⟨q1.le, q2.le⟩) (fun _ => ⟨q1.le.trans hqq, min_le_left _ _⟩) le_rfl hqq ho hXz hs
      rw [← hzy] at this
      linarith
    · have e1 : Xe ε z = Xe ε ⟨q.x, y⟩ := le_antisymm hXy (by rw [hs]; exact hm.2.2)
      have h2 := hm.1
      rw [← e1] at h2
      have : y = z.y := by
        unfold Xe at e1
        simp only at e1
        rw [hx] at e1
        have := S.v.eps
        nlinarith
      simp only at h2
      linarith

/-- The answer for a point of the inside, over or under the edge which closes a contour. -/
theorem closing (hcomp : (trapAt N j).isComponent =
      ((edgeAt g.edges (trapAt N j).below).interiorToLeft && !(edgeAt g.edges (trapAt N j).above).interiorToLeft))
    (hin : p.locate q = .interior) {c : Contour} (hcm : c ∈ polygonContours p) {z : Point}
    (hz : z ∈ openSeg (lastOf c) (c.vertices.headD ⟨0, 0⟩)) (hx : z.x = q.x)
    (hw : ∀ w ∈ openSeg q z, p.locate w = .interior) : (trapAt N j).isComponent = false := by
  obtain ⟨t, hr⟩ : ∃ t, Role p c t := by
    unfold polygonContours at hcm
    rcases List.mem_cons.mp hcm with w | w
    · exact ⟨_, Or.inl ⟨w, rfl⟩⟩
    · exact ⟨_, Or.inr ⟨w, rfl⟩⟩
  have hsc := S.vp.1 c hcm
  have hcs : (⟨lastOf c, c.vertices.headD ⟨0, 0⟩⟩ : Segment) ∈ c.segments := by
    have h3 := hsc.1
    obtain ⟨vs⟩ := c
    match vs, h3 with
    | v :: a :: b :: rest, _ =>
      have hlast : (v :: a :: b :: rest).getLastD ⟨0, 0⟩ = (v :: a :: b :: rest).getLast (by simp) := by
        rw [List.getLastD_eq_getLast?, List.getLast?_eq_some_getLast (by simp)]; rfl
      unfold Contour.segments toContourSegments lastOf
      refine List.mem_append_right _ (List.mem_singleton.mpr ?_)
      rw [hlast]; rfl
  have hso := mem_oriented (t := t) hsc hcs
  obtain ⟨s, hs, hcl⟩ : ∃ s ∈ toOrientedSegments c.vertices t, Closes c s.start s.end := by
    refine ⟨_, hso, ?_⟩
    split_ifs
    · exact Or.inl ⟨rfl, rfl⟩
    · exact Or.inr ⟨rfl, rfl⟩
  have hsp := hr.sub hs
  obtain ⟨b, hb, bL, bR⟩ := S.o.cover s hsp
  obtain ⟨c', t', s', cl, hr', st⟩ := S.o.stands b hb
  have hss : s' = s := S.uniq (hr'.sub st.so) hsp (st.lo.symm.trans bL) (st.hi.symm.trans bR)
  subst hss
  have hcc : c' = c := hr'.unique S.nodup hr st.so hs
  subst hcc
  have hflag := st.flag
  rw [st.closed hcl] at hflag
  have hD := S.inside_iff.mp hin
  have hoz : z ∈ openSeg (Seidel.pt endpoints (edgeAt es b).left) (Seidel.pt endpoints (edgeAt es b).right) := by
    rw [bL, bR]
    have : z ∈ openSeg s'.start s'.end := by
      rcases hcl with ⟨a1, a2⟩ | ⟨a1, a2⟩
      · rwa [a1, a2]
      · rw [a1, a2, openSeg_comm]; exact hz
    rcases lo_hi s' with ⟨a1, a2, _⟩ | ⟨a1, a2, _⟩
    · rwa [a1, a2]
    · rw [a1, a2, openSeg_comm]; exact this
  have hof : ∀ w, (∃ e < es.length, w ∈ seg (Seidel.pt endpoints (edgeAt es e).left) (Seidel.pt endpoints (edgeAt es e).right)) →
      p.locate w ≠ .interior := by
    rintro w ⟨e, he, hm⟩ hi
    obtain ⟨_, _, s2, _, r2, st2⟩ := S.o.stands e he
    rw [st2.lo, st2.hi, ← segPts_eq] at hm
    have := polygon_boundary_of_mem S.vp ⟨s2, r2.sub st2.so, hm⟩
    rw [hi] at this
    cases this
  have hw' : ∀ w ∈ openSeg q z, ∀ e < es.length,
      w ∉ seg (Seidel.pt endpoints (edgeAt es e).left) (Seidel.pt endpoints (edgeAt es e).right) :=
    fun w h e he hm => hof w ⟨e, he, hm⟩ (hw w h)
  rw [hcomp]
  rcases lt_trichotomy z.y q.y with hy | hy | hy
  · rcases (S.d.edg j S.hj).2 with hbl | hbl
    · rw [S.v.n] at hbl
      have e := S.vertical_below hb hoz hx hy hw' hbl
      have d := S.dirB hbl (s := s') (by rw [e]; exact ⟨bL, bR⟩) hsp
      rw [e, S.v.hedges, edgeAt_append hb, hflag, d, hD]
      rfl
    · have := S.frameB hbl
      rw [hD] at this; cases this
  · exfalso
    have e : z = q := Point.ext' hx hy
    refine S.hq b hb ?_
    obtain ⟨t, t0, t1, e'⟩ := hoz
    exact ⟨t, t0.le, t1.le, e ▸ e'⟩
  · rcases (S.d.edg j S.hj).1 with hbl | hbl
    · rw [S.v.n] at hbl
      have e := S.vertical_above hb hoz hx hy hw' hbl
      have d := S.dirA hbl (s := s') (by rw [e]; exact ⟨bL, bR⟩) hsp
      rw [e, S.v.hedges, edgeAt_append hb, hflag, d, hD]
      simp
    · have := S.frameA hbl
      rw [hD] at this; cases this

end Spot
end

/-- Points of the inside over or under the edge which closes a contour are called exterior. -/
theorem fromBox_closing {p : Polygon} (hv : ValidPolygon p) {box : Box} {es : List Edge} {endpoints : List Point}
    (h : EdgesOk box es endpoints) (o : OfPolygon p es endpoints) {T : Trapezoidation} (hT : fromBox box es endpoints = .ok T)
    {q : Point} (hin : p.locate q = .interior) {c : Contour} (hcm : c ∈ polygonContours p) {z : Point}
    (hz : z ∈ openSeg (lastOf c) (c.vertices.headD ⟨0, 0⟩)) (hx : z.x = q.x)
    (hw : ∀ w ∈ openSeg q z, p.locate w = .interior) {r : Location} (hr : T.locate q = some r) (hb : r ≠ .boundary) :
    r = .exterior := by
  obtain ⟨ε, hε⟩ := exists_sees box endpoints q
  obtain ⟨g, s⟩ := hε es h
  obtain ⟨N, hN, S, hs⟩ := fromBox_ok s.good s.hedges s.hendpoints s.n s.k h.ne h.nonempty
  have k := fromBox_comp hN
  rw [hT] at hN
  injection hN with hN
  subst hN
  rcases s.locate h S.dec hs hr with ⟨w1, _⟩ | ⟨w1, j, w2, w3, w4⟩
  · exact absurd w1 hb
  · have sp : Spot p box es endpoints q ε g N j := ⟨hv, o, s, h, S.dec, hs, w2, w3, w1⟩
    rw [w4, sp.closing (k j w2) hin hcm hz hx hw]
    rfl

end Rene.Seidel
