import Verif.Lemmas.Seidel.ClosingSeen
import Verif.Lemmas.Dense

/-! When the trapezoidation of a polygon makes no mistake. -/

namespace Rene.Seidel
open Rene Spec Sweep

theorem near_between {m a b w : Point} {r : ℚ} (ha : Near m r a) (hb : Near m r b) (hw : w ∈ openSeg a b) : Near m r w := by
  obtain ⟨τ, τ0, τ1, rfl⟩ := hw
  obtain ⟨a1, a2⟩ := ha
  obtain ⟨b1, b2⟩ := hb
  have key : ∀ x y c : ℚ, |x - c| < r → |y - c| < r → |x + τ * (y - x) - c| < r := by
    intro x y c h1 h2
    rw [abs_lt] at *
    constructor <;> nlinarith
  exact ⟨key _ _ _ a1 b1, key _ _ _ a2 b2⟩

/-- Over or under an edge which is not vertical there are points of the inside which see it. -/
theorem inside_next_to {p : Polygon} (h : ValidPolygon p) {s : Segment} (hs : s ∈ p.correctlyOrientedSegments)
    (hx : s.start.x ≠ s.end.x) : ∃ q, p.locate q = .interior ∧ ∃ z ∈ openSeg s.start s.end, z.x = q.x ∧
      ∀ w ∈ openSeg q z, p.locate w = .interior := by
  classical
  obtain ⟨ε, hg⟩ := exists_gen ((polygonContours p).flatMap Contour.vertices).toFinset
  have E := polygon_edges h (ε := ε) (fun c hc => fun u hu v hv => hg u
    (List.mem_toFinset.mpr (List.mem_flatMap.mpr ⟨c, hc, hu⟩)) v (List.mem_toFinset.mpr (List.mem_flatMap.mpr ⟨c, hc, hv⟩)))
  have hno : NoOverlap p.correctlyOrientedSegments := noOverlap_of_perm (polygon_sets h).symm h.2.1
  have hnd := nodup_of_noOverlap hno
  set L := p.correctlyOrientedSegments.filter (· ≠ s) with hL
  have memL : ∀ t, t ∈ L ↔ t ∈ p.correctlyOrientedSegments ∧ t ≠ s := fun t => by rw [hL, List.mem_filter]; simp
  have hne := hno.1 s hs
  obtain ⟨m, hm, _, hmL⟩ := slide (e := s) hne (start_mem_seg _ _) (L := L) (fun t ht => by
    obtain ⟨a, b⟩ := (memL t).mp ht
    rcases pairwise_or hno.2 a hs b with w | w
    · exact w
    · unfold Apart at *; rwa [Set.inter_comm]) one_pos
  have incL : ∀ t ∈ L, Xe ε (lo t) < Xe ε (hi t) := fun t ht => E.inc t ((memL t).mp ht).1
  obtain ⟨r, r0, hr⟩ := near_list_off incL hmL
  obtain ⟨t, t0, t1, em⟩ := id hm
  have ex : m.x = s.start.x + t * (s.end.x - s.start.x) := by rw [em]; rfl
  have ey : m.y = s.start.y + t * (s.end.y - s.start.y) := by rw [em]; rfl
  have hd : s.end.x - s.start.x ≠ 0 := fun e => hx (by linarith)
  set D := s.end.x - s.start.x with hD
  set k := (s.end.y - s.start.y) / D with hk
  have hkD : k * D = s.end.y - s.start.y := by rw [hk]; field_simp
  have aD : 0 < |D| := abs_pos.mpr hd
  have ak := abs_nonneg k
  -- how near
  obtain ⟨r', r'0, n1, n2, n3⟩ : ∃ r' > 0, r' * (1 + |k|) ≤ r ∧ r' ≤ t * |D| ∧ r' ≤ (1 - t) * |D| := by
    refine ⟨min (r / (1 + |k|)) (min (t * |D|) ((1 - t) * |D|)), ?_, ?_, ?_, ?_⟩
    · refine lt_min (by positivity) (lt_min (by positivity) (mul_pos (by linarith) aD))
    · have := min_le_left (r / (1 + |k|)) (min (t * |D|) ((1 - t) * |D|))
      have hp : 0 < 1 + |k| := by positivity
      calc _ ≤ r / (1 + |k|) * (1 + |k|) := by nlinarith
        _ = r := by field_simp
    · exact (min_le_right _ _).trans (min_le_left _ _)
    · exact (min_le_right _ _).trans (min_le_right _ _)
  -- a point of the inside
  obtain ⟨η, η0, hη⟩ := exists_clear (F := p.correctlyOrientedSegments) (ε := ε) E.inc m
  obtain ⟨η', η0', hη'⟩ := near_lift (ε := ε) (q := m) r'0
  set δ := min η η' / 2 with hδ
  have m0 : 0 < min η η' := lt_min η0 η0'
  have δ0 : 0 < δ := by rw [hδ]; linarith
  have δ1 : δ < η := by have := min_le_left η η'; rw [hδ]; linarith
  have δ2 : δ < η' := by have := min_le_right η η'; rw [hδ]; linarith
  have hms : m ∈ segPts s := ⟨t, t0.le, t1.le, em⟩
  have mF := (mem_segPts_sF (E.inc s hs) m).mp hms
  have hdir := E.dir s hs m hm fun t ht hts hmt => hmL ⟨t, (memL t).mpr ⟨ht, hts⟩, hmt⟩
  have sp : sSpans ε s (Xe ε m) := by
    refine ⟨mF.2.1, lt_of_le_of_ne mF.2.2 fun e => ?_⟩
    have hl : lo s = s.start ∧ hi s = s.end ∨ lo s = s.end ∧ hi s = s.start := lo_hi_or s
    have hlt := E.inc s hs
    have eX : Xe ε m = Xe ε s.start + t * (Xe ε s.end - Xe ε s.start) := by rw [em, Xe_lerp]
    rcases hl with ⟨a, b⟩ | ⟨a, b⟩ <;> rw [a, b] at hlt <;> rw [b] at e <;> nlinarith
  have inside : ∀ d, |d| = δ → decide (0 < d) = !downParity ε m p.correctlyOrientedSegments →
      p.locate (lift ε m d) = .interior := by
    intro d hd1 hd2
    obtain ⟨c1, c2⟩ := hη d (by rw [hd1]; exact δ0) (by rw [hd1]; exact δ1)
    refine (E.off _ c1).mp ?_
    have hx := xorSum_at hnd hs (g := fun s => below ε s (lift ε m d)) (h := fun s => below ε s m) (fun u hu hus => by
      rw [Bool.eq_iff_iff, c2 u hu, below_sF (E.inc u hu)]
      refine and_congr_right fun w => ⟨fun k => ?_, Or.inl⟩
      rcases k with k | ⟨k, _⟩
      · exact k
      · exact absurd ⟨u, (memL u).mpr ⟨hu, hus⟩, (mem_segPts_sF (E.inc u hu) m).mpr ⟨k.symm, w.1, w.2.le⟩⟩ hmL)
    have b1 : below ε s m = false := by
      rw [← Bool.not_eq_true, below_sF (E.inc s hs), ← mF.1]
      exact fun w => lt_irrefl _ w.2
    have b2 : below ε s (lift ε m d) = decide (0 < d) := by
      rw [Bool.eq_iff_iff, c2 s hs, ← mF.1]
      simp [sp]
    simp only [b1, b2, hd2] at hx
    unfold downParity at *
    generalize xorSum (fun s => below ε s (lift ε m d)) _ = x at *
    generalize xorSum (fun s => below ε s m) _ = y at *
    cases x <;> cases y <;> simp_all
  obtain ⟨d, hd1, hin⟩ : ∃ d, |d| = δ ∧ p.locate (lift ε m d) = .interior := by
    by_cases w : downParity ε m p.correctlyOrientedSegments = true
    · refine ⟨-δ, by rw [abs_neg, abs_of_pos δ0], inside _ (by rw [abs_neg, abs_of_pos δ0]) ?_⟩
      rw [w]; simp [δ0.le]
    · refine ⟨δ, abs_of_pos δ0, inside _ (abs_of_pos δ0) ?_⟩
      rw [Bool.not_eq_true] at w
      rw [w]; simp [δ0]
  obtain ⟨q1, q2⟩ := hη' d (by rw [hd1]; exact δ2)
  have hoff := (hη d (by rw [hd1]; exact δ0) (by rw [hd1]; exact δ1)).1
  generalize lift ε m d = q at *
  -- the point of the edge
  set u := q.x - m.x with hu
  have hzs : (⟨q.x, m.y + k * u⟩ : Point) ∈ openSeg s.start s.end := by
    have ua := abs_lt.mp q1
    have ha : |u / D| < t ∧ |u / D| < 1 - t := by
      rw [abs_div, div_lt_iff₀ aD, div_lt_iff₀ aD]
      exact ⟨by linarith, by linarith⟩
    have h1 := abs_lt.mp ha.1
    have h2 := abs_lt.mp ha.2
    refine ⟨t + u / D, by linarith [h1.1], by linarith [h2.2], ?_⟩
    unfold lerp
    refine Point.ext' ?_ ?_ <;> simp only
    · have : u / D * D = u := by field_simp
      rw [← hD]
      linear_combination (-1) * hu + ex - this
    · have : u / D * D = u := by field_simp
      rw [← hkD] at ey ⊢
      linear_combination ey - k * this
  refine ⟨q, hin, ⟨q.x, m.y + k * u⟩, hzs, rfl, inside_along h hin ?_⟩
  rintro w hw ⟨s', hs', hws⟩
  have rr : r' ≤ r := by
    have := mul_nonneg r'0.le ak
    linarith
  have near_z : Near m r ⟨q.x, m.y + k * u⟩ := by
    constructor
    · exact lt_of_lt_of_le q1 rr
    · show |m.y + k * u - m.y| < r
      rw [show m.y + k * u - m.y = k * u by ring, abs_mul]
      have := mul_le_mul_of_nonneg_left q1.le ak
      linarith
  have near_q : Near m r q := ⟨lt_of_lt_of_le q1 rr, lt_of_lt_of_le q2 rr⟩
  have near_w : Near m r w := near_between near_q near_z hw
  by_cases e : s' = s
  · subst e
    -- the vertical line meets the edge only once
    obtain ⟨wx, wy⟩ := mem_openSeg_x hw
    obtain ⟨τ, _, _, e⟩ := hws
    have e1 : w.x = s'.start.x + τ * D := by rw [e]; rfl
    have e2 : w.y = s'.start.y + τ * (s'.end.y - s'.start.y) := by rw [e]; rfl
    have e3 : τ * D = t * D + u := by linarith
    have e4 : w.y = m.y + k * u := by
      rw [e2, ey, ← hkD]
      linear_combination k * e3
    rcases wy with ⟨a, b, c⟩ | ⟨a, b, c⟩ | ⟨a, b⟩
    · linarith
    · linarith
    · refine hoff ⟨s', hs', ?_⟩
      have : q = w := Point.ext' wx.symm b.symm
      rw [this, e]
      exact ⟨τ, by assumption, by assumption, rfl⟩
  · exact hr w near_w ⟨s', (memL s').mpr ⟨hs', e⟩, hws⟩

/-- The edge of a mistake is not vertical. -/
theorem Spot.missed {p : Polygon} {box : Box} {es : List Edge} {endpoints : List Point} {q : Point} {ε : ℚ} {g : Geo}
    {N : Nodes} {j : ℕ} (S : Spot p box es endpoints q ε g N j) (hcomp : (trapAt N j).isComponent =
      ((edgeAt g.edges (trapAt N j).below).interiorToLeft && !(edgeAt g.edges (trapAt N j).above).interiorToLeft))
    (hin : p.locate q = .interior) (hf : (trapAt N j).isComponent = false) :
    ∃ c ∈ polygonContours p, (lastOf c).x ≠ (c.vertices.headD ⟨0, 0⟩).x := by
  have hX : ∀ z, (frameCtx es endpoints ε).X z = Xe ε z := fun _ => rfl
  have hD := S.inside_iff.mp hin
  have hb : (trapAt N j).below < es.length := by
    rcases (S.d.edg j S.hj).2 with k | k
    · rwa [S.v.n] at k
    · have := S.frameB k; rw [hD] at this; cases this
  have ha : (trapAt N j).above < es.length := by
    rcases (S.d.edg j S.hj).1 with k | k
    · rwa [S.v.n] at k
    · have := S.frameA k; rw [hD] at this; cases this
  obtain ⟨cb, tb, sb, kb, rb, stb⟩ := S.o.stands _ hb
  obtain ⟨ca, ta, sa, ka, ra, sta⟩ := S.o.stands _ ha
  have db := S.dirB hb ⟨stb.lo, stb.hi⟩ (rb.sub stb.so)
  have da := S.dirA ha ⟨sta.lo, sta.hi⟩ (ra.sub sta.so)
  rw [hcomp, S.v.hedges, edgeAt_append hb, edgeAt_append ha, stb.flag, sta.flag, db, da, hD] at hf
  have fin : ∀ b (hb : b < es.length) (c : Contour) (t : Orientation) (s : Segment), Role p c t →
      Stands endpoints c t (edgeAt es b) s true → g.Sp b (Xe ε q) →
      ∃ c ∈ polygonContours p, (lastOf c).x ≠ (c.vertices.headD ⟨0, 0⟩).x := by
    intro b hb c t s hr st sp
    obtain ⟨y, hy, hc⟩ := S.col hb (sp (by rw [S.v.n]; exact hb))
    refine ⟨c, hr.mem, fun e => ?_⟩
    have hlt := S.h.lt b hb
    have mL := (S.v.mem S.h hb _).mp (start_mem_seg (Seidel.pt endpoints (edgeAt es b).left) (Seidel.pt endpoints (edgeAt es b).right))
    have mR := (S.v.mem S.h hb _).mp (end_mem_seg (Seidel.pt endpoints (edgeAt es b).left) (Seidel.pt endpoints (edgeAt es b).right))
    rw [hX] at mL mR
    have e' : (lo s).x = (Sweep.hi s).x := by
      rcases st.close rfl with ⟨a1, a2⟩ | ⟨a1, a2⟩ <;> rcases lo_hi s with ⟨b1, b2, _⟩ | ⟨b1, b2, _⟩ <;>
        rw [b1, b2, a1, a2] <;> first | exact e | exact e.symm
    rw [← st.lo, ← st.hi] at e'
    generalize Seidel.pt endpoints (edgeAt es b).left = A at *
    generalize Seidel.pt endpoints (edgeAt es b).right = B at *
    have hq : A.x = q.x := by
      obtain ⟨τ, _, _, w⟩ := hy
      have := congrArg Point.x w
      unfold lerp at this
      simp only at this
      rw [this, ← e']; ring
    have on : ∀ z : Point, z.x = q.x → z.y = g.f b (Xe ε z) → z.y = y := by
      intro z hz hzy
      have c1 := hc z hz
      rw [← hzy] at c1
      exact le_antisymm (not_lt.mp fun k => lt_irrefl _ (c1.2.mpr k)) (not_lt.mp fun k => lt_irrefl _ (c1.1.mpr k))
    have : A = B := Point.ext' e' ((on A hq mL.1).trans (on B (e' ▸ hq) mR.1).symm)
    rw [this] at hlt
    exact lt_irrefl _ hlt
  rcases kb with _ | _
  · rcases ka with _ | _
    · cases hf
    · exact fin _ ha _ _ _ ra sta S.spA
  · exact fin _ hb _ _ _ rb stb S.spB

theorem fromBox_missed {p : Polygon} (hv : ValidPolygon p) {box : Box} {es : List Edge} {endpoints : List Point}
    (h : EdgesOk box es endpoints) (o : OfPolygon p es endpoints) {T : Trapezoidation} (hT : fromBox box es endpoints = .ok T)
    {q : Point} (hin : p.locate q = .interior) (hr : T.locate q = some .exterior) :
    ∃ c ∈ polygonContours p, (lastOf c).x ≠ (c.vertices.headD ⟨0, 0⟩).x := by
  obtain ⟨ε, hε⟩ := exists_sees box endpoints q
  obtain ⟨g, s⟩ := hε es h
  obtain ⟨N, hN, S, hs⟩ := fromBox_ok s.good s.hedges s.hendpoints s.n s.k h.ne h.nonempty
  have k := fromBox_comp hN
  rw [hT] at hN
  injection hN with hN
  subst hN
  rcases s.locate h S.dec hs hr with ⟨w1, _⟩ | ⟨w1, j, w2, w3, w4⟩
  · cases w1
  · have sp : Spot p box es endpoints q ε g N j := ⟨hv, o, s, h, S.dec, hs, w2, w3, w1⟩
    refine sp.missed (k j w2) hin ?_
    split_ifs at w4 with u
    exact Bool.eq_false_iff.mpr u

/-- The edge which closes a contour, oriented. -/
theorem closing_oriented {p : Polygon} (hv : ValidPolygon p) {c : Contour} (hcm : c ∈ polygonContours p) :
    ∃ s ∈ p.correctlyOrientedSegments, Closes c s.start s.end := by
  obtain ⟨t, hr⟩ : ∃ t, Role p c t := by
    unfold polygonContours at hcm
    rcases List.mem_cons.mp hcm with w | w
    · exact ⟨_, Or.inl ⟨w, rfl⟩⟩
    · exact ⟨_, Or.inr ⟨w, rfl⟩⟩
  have hsc := hv.1 c hcm
  have hcs : (⟨lastOf c, c.vertices.headD ⟨0, 0⟩⟩ : Segment) ∈ c.segments := by
    have h3 := hsc.1
    obtain ⟨vs⟩ := c
    match vs, h3 with
    | v :: a :: b :: rest, _ =>
      have hlast : (v :: a :: b :: rest).getLastD ⟨0, 0⟩ = (v :: a :: b :: rest).getLast (by simp) := by
        rw [List.getLastD_eq_getLast?, List.getLast?_eq_some_getLast (by simp)]; rfl
      unfold Contour.segments toContourSegments lastOf
      refine List.mem_append_right _ (List.mem_singleton.mpr ?_)
      rw [hlast]; rfl
  have hso := mem_oriented (t := t) hsc hcs
  refine ⟨_, hr.sub hso, ?_⟩
  split_ifs
  · exact Or.inl ⟨rfl, rfl⟩
  · exact Or.inr ⟨rfl, rfl⟩

/-- A contour whose closing edge is not vertical has it seen from the inside. -/
theorem sees_some {p : Polygon} (hv : ValidPolygon p) {c : Contour} (hcm : c ∈ polygonContours p)
    (hx : (lastOf c).x ≠ (c.vertices.headD ⟨0, 0⟩).x) : ∃ q, p.locate q = .interior ∧
      ∃ z ∈ openSeg (lastOf c) (c.vertices.headD ⟨0, 0⟩), z.x = q.x ∧ ∀ w ∈ openSeg q z, p.locate w = .interior := by
  obtain ⟨s, hs, hc⟩ := closing_oriented hv hcm
  have hx' : s.start.x ≠ s.end.x := by
    rcases hc with ⟨a, b⟩ | ⟨a, b⟩ <;> rw [a, b]
    · exact hx
    · exact fun e => hx e.symm
  obtain ⟨q, h1, z, h2, h3⟩ := inside_next_to hv hs hx'
  refine ⟨q, h1, z, ?_, h3⟩
  rcases hc with ⟨a, b⟩ | ⟨a, b⟩ <;> rw [a, b] at h2
  · exact h2
  · rw [openSeg_comm]; exact h2

end Rene.Seidel
