import Verif.Lemmas.Assemble.Graph
import Verif.Lemmas.Face.Last

/-! The recorded events below are the next edges of the result below. -/

namespace Rene.Sweep
open Rene Spec Face Assemble

/-- There is room after an abscissa. -/
theorem exists_room (c : Ctx) {t r : ℚ} (h : t < r) (P : Finset Point) :
    ∃ b, t < b ∧ b ≤ r ∧ ∀ q ∈ P, c.X q ≤ t ∨ b ≤ c.X q := by
  classical
  induction P using Finset.induction_on with
  | empty => exact ⟨r, h, le_rfl, by simp⟩
  | insert q P _ ih =>
    obtain ⟨b, b1, b2, b3⟩ := ih
    by_cases k : c.X q ≤ t
    · exact ⟨b, b1, b2, fun p hp => (Finset.mem_insert.mp hp).elim (fun e => Or.inl (e ▸ k)) (b3 p)⟩
    · rw [not_le] at k
      refine ⟨min b (c.X q), lt_min b1 k, (min_le_left _ _).trans b2, fun p hp => ?_⟩
      rcases Finset.mem_insert.mp hp with rfl | hp
      · exact Or.inr (min_le_right _ _)
      · exact (b3 p hp).imp_right (min_le_left _ _).trans

/-- The points over a vertical piece are on it. -/
theorem vertical_on {c : Ctx} {S : Shp} (g : c.Good) (w : Wf c S.lin) {y x : ℕ} (hy : IsL S.lin y) (hx : IsL S.lin x)
    (hv : S.isVertical y = true) (h1 : lx c S.lin y ≤ lx c S.lin x) (h2 : lx c S.lin x < rx c S.lin y) :
    c.f (S.lin.sid y) (lx c S.lin x) = c.f (S.lin.sid x) (lx c S.lin x) ∧ c.K (S.lin.sid x) ≤ c.K (S.lin.sid y) := by
  have ve : c.ε * c.K (S.lin.sid y) = 1 := by
    rw [vert_iff w hy] at hv; exact of_decide_eq_true hv
  have hxe : (S.lin.start y).x = (S.lin.end y).x := of_decide_eq_true hv
  have le1 := (g.le_iff (w.memP y hy.1) (w.memP x hx.1)).mpr h1
  have le2 := (g.lt_iff (w.memP x hx.1) (end_mem w hy)).mpr h2
  have le3 := (g.lt_iff (w.memP y hy.1) (end_mem w hy)).mpr (w.lr y hy)
  have le4 := (g.lt_iff (w.memP x hx.1) (end_mem w hx)).mpr (w.lr x hx)
  rw [Point.le_iff] at le1
  rw [Point.lt_iff] at le2 le3 le4
  have ex : (S.lin.start x).x = (S.lin.start y).x := by
    rcases le1 with k | k <;> rcases le2 with q | q <;> linarith
  have oy := w.onL y hy
  have ox := w.onL x hx
  have rx' := w.onR x hx
  have lrx := w.lr x hx
  have lry := w.lr y hy
  unfold lx rx at lry lrx
  have dy : 0 < (S.lin.end y).y - (S.lin.start y).y := by rcases le3 with k | k <;> linarith
  have ε0 : 0 < c.ε := by
    unfold Ctx.X at lry
    have : 0 < c.ε * ((S.lin.end y).y - (S.lin.start y).y) := by linarith
    exact (pos_iff_pos_of_mul_pos this).mpr dy
  constructor
  · unfold lx
    rw [show c.f (S.lin.sid x) (c.X (S.lin.start x)) = (S.lin.start x).y from ox.symm]
    unfold Ctx.On Ctx.f Ctx.X at oy
    unfold Ctx.f Ctx.X
    rw [ex]
    have : c.K (S.lin.sid y) * ((S.lin.start y).x) + c.C (S.lin.sid y) = 0 := by
      linear_combination (-1) * oy + (S.lin.start y).y * (1 - ve)
    linear_combination this + (S.lin.start x).y * ve
  · have e1 : (1 - c.ε * c.K (S.lin.sid x)) * (c.X (S.lin.end x) - c.X (S.lin.start x)) =
        (S.lin.end x).x - (S.lin.start x).x := by
      have e1 : (S.lin.end x).y - (S.lin.start x).y = c.K (S.lin.sid x) * (c.X (S.lin.end x) - c.X (S.lin.start x)) := by
        unfold Ctx.On Ctx.f at ox rx'
        linear_combination rx' - ox
      have e2 : c.X (S.lin.end x) - c.X (S.lin.start x) =
          ((S.lin.end x).x - (S.lin.start x).x) + c.ε * ((S.lin.end x).y - (S.lin.start x).y) := by
        unfold Ctx.X; ring
      rw [e1] at e2
      linear_combination e2
    have dx : 0 ≤ (S.lin.end x).x - (S.lin.start x).x := by rcases le4 with k | k <;> linarith
    rw [← e1] at dx
    have k1 : 0 ≤ 1 - c.ε * c.K (S.lin.sid x) := nonneg_of_mul_nonneg_left dx (by linarith)
    have k2 : c.ε * c.K (S.lin.sid x) ≤ c.ε * c.K (S.lin.sid y) := by linarith
    exact le_of_mul_le_mul_left k2 ε0

/-- The start of a piece is on the line of another one. -/
def c_on (c : Ctx) (S : Lin) (x y : ℕ) : Prop := c.On (S.sid y) (S.start x)

section
variable {ε : ℚ} {op : ShpOp} {first second full1 full2 : List Segment} {R1 R2 : Set Point} {stop : Point → Bool}
  {S : Shp} {M : Mix} {acc : List ℕ}

/-- Selected pieces which overlap are of the second operand. -/
theorem Fin.ofSecond (h : Fin ε op first second full1 full2 R1 R2 stop S M acc) {x : ℕ} (hx : IsL S.lin x)
    (sx : stop (S.lin.start x) = false) (fx : flag S.fromResult x = true) (kx : S.kind x ≠ .none) :
    opB (ctxOf first second ε) (S.lin.sid x) = false := by
  have := h.sel hx sx
  rw [fx] at this
  cases hb : opB (ctxOf first second ε) (S.lin.sid x) with
  | false => rfl
  | true =>
    rw [hb] at this
    exfalso
    revert this
    cases op <;> simp [sdet, kx]

/-- The data of a selected left event. -/
theorem Fin.dart (h : Fin ε op first second full1 full2 R1 R2 stop S M acc)
    (cl : Close ε op first second full1 full2 stop) {j : _root_.Fin (selEvents S acc).length}
    (hj : (darts (h.evs cl)).lf j = true) :
    IsL S.lin ((selEvents S acc).get j) ∧ flag S.fromResult ((selEvents S acc).get j) = true ∧
    stop (S.lin.start ((selEvents S acc).get j)) = false ∧
    slope (ctxOf first second ε) S.lin ((selEvents S acc).get j) = (ctxOf first second ε).K (S.lin.sid ((selEvents S acc).get j)) ∧
    icept (ctxOf first second ε) S.lin ((selEvents S acc).get j) = (ctxOf first second ε).C (S.lin.sid ((selEvents S acc).get j)) ∧
    (darts (h.evs cl)).v ((darts (h.evs cl)).opp j) = rx (ctxOf first second ε) S.lin ((selEvents S acc).get j) := by
  have hl : S.lin.toLeft ((selEvents S acc).get j) = (selEvents S acc).get j := toLeft_left hj
  obtain ⟨p1, p2, p3, p4⟩ := h.piece cl (List.get_mem _ j)
  rw [hl] at p1 p2 p3
  refine ⟨p1, p2, p3, ?_, ?_, ?_⟩
  · unfold slope; rw [hl]
  · unfold icept; rw [hl]
  · rw [darts_v, get_opp]; rfl

/-- Passing below a piece. -/
theorem Fin.under_iff (h : Fin ε op first second full1 full2 R1 R2 stop S M acc)
    (cl : Close ε op first second full1 full2 stop) {j : _root_.Fin (selEvents S acc).length}
    (hj : (darts (h.evs cl)).lf j = true) {y : ℕ} (hy : IsL S.lin y) {t : ℚ} (ht : Within (ctxOf first second ε) stop t)
    (h1 : lx (ctxOf first second ε) S.lin y ≤ t) (h2 : t < rx (ctxOf first second ε) S.lin y) :
    Face.under (darts (h.evs cl)) (fun i => slope (ctxOf first second ε) S.lin ((selEvents S acc).get i))
      (fun i => icept (ctxOf first second ε) S.lin ((selEvents S acc).get i)) t
      ((ctxOf first second ε).K (S.lin.sid y) * t + (ctxOf first second ε).C (S.lin.sid y))
      ((ctxOf first second ε).K (S.lin.sid y)) j = true ↔
    lx (ctxOf first second ε) S.lin ((selEvents S acc).get j) ≤ t ∧ t < rx (ctxOf first second ε) S.lin ((selEvents S acc).get j) ∧
      BelowE (ctxOf first second ε) (S.lin.sid ((selEvents S acc).get j)) (S.lin.sid y) t := by
  set c := ctxOf first second ε with hc
  obtain ⟨d1, d2, d3, d4, d5, d6⟩ := h.dart cl hj
  rw [Face.under_iff, d6, darts_v, d4, d5]
  constructor
  · rintro ⟨_, k1, k2, k3⟩
    exact ⟨k1, k2, Or.inl k3⟩
  · rintro ⟨k1, k2, k3 | k3⟩
    · exact ⟨hj, k1, k2, k3⟩
    · exfalso
      have hr := h.ret d1 hy k3.1 ht k1 k2 h1 h2
      have hne : y ≠ (selEvents S acc).get j := by
        intro e
        rw [← e] at k3
        exact k3.2.2 k3.2.1
      have kx : S.kind ((selEvents S acc).get j) ≠ .none := fun q => hne ((h.kind_none d1 d3).mp q y hy hr)
      have := h.ofSecond d1 d3 d2 kx
      unfold opB at this
      rw [decide_eq_false_iff_not] at this
      exact this k3.2.1

/-- The line of a piece does not meet the edges of the result before an abscissa. -/
theorem Fin.clear_before (h : Fin ε op first second full1 full2 R1 R2 stop S M acc)
    (cl : Close ε op first second full1 full2 stop) {y : ℕ} (hy : IsL S.lin y) {b : ℚ}
    (st : ∀ q ∈ (ctxOf first second ε).P, (ctxOf first second ε).X q < b → stop q = false)
    (b2 : b ≤ rx (ctxOf first second ε) S.lin y) :
    Clear (darts (h.evs cl)) (fun i => slope (ctxOf first second ε) S.lin ((selEvents S acc).get i))
      (fun i => icept (ctxOf first second ε) S.lin ((selEvents S acc).get i)) (ordinate (ctxOf first second ε))
      ((ctxOf first second ε).K (S.lin.sid y)) ((ctxOf first second ε).C (S.lin.sid y))
      (lx (ctxOf first second ε) S.lin y) b := by
  set c := ctxOf first second ε with hc
  have w := h.wf
  have no := h.h1.noInt
  rw [← h.rel.lin] at no
  refine ⟨fun d d1 d2 => Or.inl fun e => ?_, fun j hj => ?_⟩
  · have dc : (selEvents S acc).get d < cnt S.lin := ((mem_selEvents h).mp (List.get_mem _ d)).1
    rw [darts_v] at d1 d2 e
    have dP := w.memP _ dc
    refine no _ dP (st _ dP d2) y hy ?_ ⟨d1, lt_of_lt_of_le d2 b2⟩
    have e2 : ordinate c (lx c S.lin ((selEvents S acc).get d)) = (S.lin.start ((selEvents S acc).get d)).y :=
      ordinate_eq h.good dP
    rw [e2] at e
    exact e.symm
  · obtain ⟨d1, d2, d3, d4, d5, d6⟩ := h.dart cl hj
    by_cases hcoll : CollE c S.lin ((selEvents S acc).get j) y
    · left
      rw [d4, d5]
      exact hcoll
    · right
      intro u u1 u2 u3 u4 e
      rw [d6] at u4
      rw [darts_v] at u3
      rw [d4, d5] at e
      have e' : c.f (S.lin.sid y) u = c.f (S.lin.sid ((selEvents S acc).get j)) u := e
      have u2' : u < rx c S.lin y := lt_of_lt_of_le u2 b2
      have hq := h.good.cross _ (w.sidLt y hy) _ (w.sidLt _ d1) (fun q => hcoll q.symm) (at' c (S.lin.sid y) u) at'_on
        (at'_on' e')
        (by rw [at'_X]; exact (w.inA y hy).trans u1.le) (by rw [at'_X]; exact u2'.le.trans (w.inB y hy))
        (by rw [at'_X]; exact (w.inA _ d1).trans u3.le) (by rw [at'_X]; exact u4.le.trans (w.inB _ d1))
      exact no _ hq (st _ hq (by rw [at'_X]; exact u2)) y hy at'_on (by rw [at'_X]; exact ⟨u1, u2'⟩)

/-- The line of a piece does not meet the edges of the result. -/
theorem Fin.clear (h : Fin ε op first second full1 full2 R1 R2 stop S M acc)
    (cl : Close ε op first second full1 full2 stop) {y : ℕ} (hy : IsL S.lin y) {t : ℚ}
    (ht : Within (ctxOf first second ε) stop t) (h2 : t < rx (ctxOf first second ε) S.lin y) :
    ∃ b, t < b ∧ Clear (darts (h.evs cl)) (fun i => slope (ctxOf first second ε) S.lin ((selEvents S acc).get i))
      (fun i => icept (ctxOf first second ε) S.lin ((selEvents S acc).get i)) (ordinate (ctxOf first second ε))
      ((ctxOf first second ε).K (S.lin.sid y)) ((ctxOf first second ε).C (S.lin.sid y))
      (lx (ctxOf first second ε) S.lin y) b := by
  obtain ⟨v, vP, vs, hv⟩ := ht
  obtain ⟨b, b1, b2, b3⟩ := exists_room (ctxOf first second ε) h2 (ctxOf first second ε).P
  refine ⟨b, b1, h.clear_before cl hy (fun q hq k => ?_) b2⟩
  exact h.two.s1.mono.false ((h.good.le_iff hq vP).mpr (((b3 _ hq).resolve_right (not_le.mpr k)).trans hv)) vs

/-- The pieces at the start of an irregular one. -/
theorem Fin.irr (h : Fin ε op first second full1 full2 R1 R2 stop S M acc) {x y : ℕ} (hx : IsL S.lin x)
    (sx : stop (S.lin.start x) = false) (ir : Irr (ctxOf first second ε) S.lin x y) :
    ¬ CollE (ctxOf first second ε) S.lin y x ∧
    (ctxOf first second ε).K (S.lin.sid y) < (ctxOf first second ε).K (S.lin.sid x) ∧
    c_on (ctxOf first second ε) S.lin x y ∧
    (∃ a, IsL S.lin a ∧ S.lin.sid a = S.lin.sid y ∧ lx (ctxOf first second ε) S.lin a = lx (ctxOf first second ε) S.lin x ∧
      ∀ z, IsL S.lin z → lx (ctxOf first second ε) S.lin z = lx (ctxOf first second ε) S.lin x → S.lin.sid z = S.lin.sid y → z = a) ∧
    (∀ z, IsL S.lin z → rx (ctxOf first second ε) S.lin z = lx (ctxOf first second ε) S.lin x → z = y) ∧
    ∀ z, IsL S.lin z → lx (ctxOf first second ε) S.lin z < lx (ctxOf first second ε) S.lin x →
      lx (ctxOf first second ε) S.lin x < rx (ctxOf first second ε) S.lin z →
      (ctxOf first second ε).f (S.lin.sid z) (lx (ctxOf first second ε) S.lin x) ≠
      (ctxOf first second ε).f (S.lin.sid y) (lx (ctxOf first second ε) S.lin x) := by
  set c := ctxOf first second ε with hc
  have w := h.wf
  have g := h.good
  have xP := w.memP x hx.1
  obtain ⟨u, v, t⟩ := ir.tee
  have yl := w.lr y ir.pop.1
  have ey := ir.ends
  have nc : ¬ CollE c S.lin y x := by
    intro q
    obtain ⟨k, k1, k2, k3, k4⟩ := ir.coll q
    have e : S.lin.start k = S.lin.start x := (g.eq_iff (w.memP k k2.1) xP).mpr k4
    have := h.fin.queue k k1
    rw [e, sx] at this
    cases this
  have on : c_on c S.lin x y := t.strict.1
  have fx : c.f (S.lin.sid x) (lx c S.lin x) = (S.lin.start x).y := (w.onL x hx).symm
  have fy : c.f (S.lin.sid y) (lx c S.lin x) = (S.lin.start x).y := t.strict.1.symm
  have hK : c.K (S.lin.sid y) < c.K (S.lin.sid x) := by
    rcases ir.below with (k | k) | k
    · rw [fx, fy] at k; exact absurd k (lt_irrefl _)
    · exact k.2
    · exact absurd k.1 nc
  refine ⟨nc, hK, on, ?_, fun z hz ez => ?_, fun z hz z1 z2 e => ?_⟩
  · obtain ⟨a, ha, sa, a1, a2⟩ := w.after t.ilt t.strict.2.1.le t.strict.2.2
    have a2 : lx c S.lin x < rx c S.lin a := a2
    have a1 : lx c S.lin a ≤ lx c S.lin x := a1
    have hay : a ≠ y := by rintro rfl; linarith
    have la : lx c S.lin a = lx c S.lin x := by
      rcases w.same ha ir.pop.1 sa hay with k | k
      · linarith
      · linarith
    refine ⟨a, ha, sa, la, fun z hz z1 z2 => ?_⟩
    by_contra hne
    have := w.lr z hz
    rcases w.same hz ha (z2.trans sa.symm) hne with k | k <;> linarith
  · have en : S.lin.end z = S.lin.start x := (g.eq_iff (end_mem w hz) xP).mpr ez
    have onz := w.onR z hz
    rw [en] at onz
    have lz := w.lr z hz
    have iz := w.inA z hz
    have ez' : rx c S.lin z = c.X (S.lin.start x) := ez
    rcases t.all _ (w.sidLt z hz) (w.thru hz onz (by linarith) ez'.ge) with k | k | k
    · by_contra hne
      rcases w.same hz ir.pop.1 k hne with q | q <;> linarith
    · rw [k, t.atu] at iz; linarith
    · rw [k, t.atv] at iz; linarith
  · have onz : c.On (S.lin.sid z) (S.lin.start x) := by
      unfold Ctx.On
      exact (e.trans fy).symm
    have k := t.eq (w.sidLt z hz) (w.strict hz onz ⟨z1, z2⟩)
    have hne : z ≠ y := by rintro rfl; linarith
    rcases w.same hz ir.pop.1 k hne with q | q <;> linarith

/-- The flag about the other operand of pieces of one operand, with nothing of the other between. -/
theorem Fin.other_eq (h : Fin ε op first second full1 full2 R1 R2 stop S M acc) {x z : ℕ} (hx : IsL S.lin x) (hz : IsL S.lin z)
    (sx : stop (S.lin.start x) = false) (e : S.lin.start z = S.lin.start x)
    (ho : opB (ctxOf first second ε) (S.lin.sid z) = opB (ctxOf first second ε) (S.lin.sid x))
    (hk : ∀ k < (ctxOf first second ε).N, opB (ctxOf first second ε) k ≠ opB (ctxOf first second ε) (S.lin.sid x) →
      Thru (ctxOf first second ε) k (S.lin.start x) → (ctxOf first second ε).K k < (ctxOf first second ε).K (S.lin.sid x) ∧
      (ctxOf first second ε).K k < (ctxOf first second ε).K (S.lin.sid z)) :
    flag S.other z = flag S.other x := by
  have w := h.wf
  have hlin := h.rel.lin
  set c := ctxOf first second ε with hc
  have ex : lx c S.lin z = lx c S.lin x := by unfold lx; rw [e]
  have hr : Within c stop (lx c S.lin x) := ⟨_, w.memP x hx.1, sx, le_rfl⟩
  have sz : stop (S.lin.start z) = false := by rw [e]; exact sx
  have rx' := w.lr x hx
  have rz' := w.lr z hz
  have spx : Spans c (S.lin.sid x) (lx c S.lin x) := ⟨w.inA x hx, lt_of_lt_of_le rx' (w.inB x hx)⟩
  have spz : Spans c (S.lin.sid z) (lx c S.lin x) := by
    rw [← ex]; exact ⟨w.inA z hz, lt_of_lt_of_le rz' (w.inB z hz)⟩
  have fx : c.f (S.lin.sid x) (lx c S.lin x) = (S.lin.start x).y := (w.onL x hx).symm
  have fz : c.f (S.lin.sid z) (lx c S.lin x) = (S.lin.start x).y := by
    have := w.onL z hz
    rw [e] at this
    exact this.symm
  -- the same edges are below
  have key : ∀ T, opB c (S.lin.sid x) = T → ∀ k < c.N, opB c k ≠ T → Spans c k (lx c S.lin x) →
      ((sAbove ε (segAt (first ++ second) k) (segAt (first ++ second) (S.lin.sid z)) (lx c S.lin x) ∨
        sColl ε (segAt (first ++ second) k) (segAt (first ++ second) (S.lin.sid z)) ∧ T = false) ↔
      (sAbove ε (segAt (first ++ second) k) (segAt (first ++ second) (S.lin.sid x)) (lx c S.lin x) ∨
        sColl ε (segAt (first ++ second) k) (segAt (first ++ second) (S.lin.sid x)) ∧ T = false)) := by
    rintro T rfl k hkN hko sp
    have fz' : sF ε (segAt (first ++ second) (S.lin.sid z)) (lx c S.lin x) = (S.lin.start x).y := fz
    have fx' : sF ε (segAt (first ++ second) (S.lin.sid x)) (lx c S.lin x) = (S.lin.start x).y := fx
    have ncz : sF ε (segAt (first ++ second) k) (lx c S.lin x) ≠ (S.lin.start x).y →
        ¬ sColl ε (segAt (first ++ second) k) (segAt (first ++ second) (S.lin.sid z)) := fun q1 q2 =>
      q1 ((q2.f_eq _).trans fz')
    have ncx : sF ε (segAt (first ++ second) k) (lx c S.lin x) ≠ (S.lin.start x).y →
        ¬ sColl ε (segAt (first ++ second) k) (segAt (first ++ second) (S.lin.sid x)) := fun q1 q2 =>
      q1 ((q2.f_eq _).trans fx')
    unfold sAbove
    rw [fz', fx']
    by_cases q : sF ε (segAt (first ++ second) k) (lx c S.lin x) = (S.lin.start x).y
    · obtain ⟨q1, q2⟩ := hk k hkN hko ⟨q.symm, sp.1, sp.2.le⟩
      exact iff_of_true (Or.inl (Or.inr ⟨q, q2⟩)) (Or.inl (Or.inr ⟨q, q1⟩))
    · have a := ncz q
      have b := ncx q
      constructor
      · rintro ((k | k) | k)
        · exact Or.inl (Or.inl k)
        · exact absurd k.1 q
        · exact absurd k.1 a
      · rintro ((k | k) | k)
        · exact Or.inl (Or.inl k)
        · exact absurd k.1 q
        · exact absurd k.1 b
  rcases hb : opB c (S.lin.sid x) with _ | _
  · have hbz : opB c (S.lin.sid z) = false := ho.trans hb
    have al := h.two.s2.along h.h2 (x := x) (by rw [← hlin]; exact hx) (by rw [← hlin]; exact hb) (τ := lx c S.lin x)
      (by rw [← hlin]) (by rw [← hlin]; exact rx') hr (by rw [← hlin]; exact sx)
    have al2 := h.two.s2.along h.h2 (x := z) (by rw [← hlin]; exact hz) (by rw [← hlin]; exact hbz) (τ := lx c S.lin x)
      (by rw [← hlin]; exact ex.le) (by rw [← hlin, ← ex]; exact rz') hr (by rw [← hlin]; exact sz)
    rw [← hlin, ← h.rel.other] at al al2
    rw [al, al2]
    unfold qAt
    rw [h.two.xfull1 (h.ok_op hr (w.sidLt x hx) spx hb) fun s k => (gb_iff.mp k).1,
      h.two.xfull1 (h.ok_op hr (w.sidLt x hx) spx hb) fun s k => (gb_iff.mp k).1]
    refine xorSum_congr fun s hs => bool_eq_of_iff ?_
    rw [gb_iff, gb_iff]
    refine and_congr_right fun sp => ?_
    obtain ⟨k, hk, ko, rfl⟩ := h.two.s1.atT hs
    exact key false hb k hk (by rw [ko]; decide) sp
  · have hbz : opB c (S.lin.sid z) = true := ho.trans hb
    have al := h.two.s1.along h.h1 (x := x) (by rw [← hlin]; exact hx) (by rw [← hlin]; exact hb) (τ := lx c S.lin x)
      (by rw [← hlin]) (by rw [← hlin]; exact rx') hr (by rw [← hlin]; exact sx)
    have al2 := h.two.s1.along h.h1 (x := z) (by rw [← hlin]; exact hz) (by rw [← hlin]; exact hbz) (τ := lx c S.lin x)
      (by rw [← hlin]; exact ex.le) (by rw [← hlin, ← ex]; exact rz') hr (by rw [← hlin]; exact sz)
    rw [← hlin, ← h.rel.other] at al al2
    rw [al, al2]
    unfold qAt
    rw [h.two.xfull2 (h.ok_op hr (w.sidLt x hx) spx hb) fun s k => (gb_iff.mp k).1,
      h.two.xfull2 (h.ok_op hr (w.sidLt x hx) spx hb) fun s k => (gb_iff.mp k).1]
    refine xorSum_congr fun s hs => bool_eq_of_iff ?_
    rw [gb_iff, gb_iff]
    refine and_congr_right fun sp => ?_
    obtain ⟨k, hk, ko, rfl⟩ := h.two.s2.atT hs
    exact key true hb k hk (by rw [ko]; decide) sp

/-- The two pieces at an irregular start are selected together. -/
theorem Fin.irr_sel (h : Fin ε op first second full1 full2 R1 R2 stop S M acc) {x y z : ℕ} (hx : IsL S.lin x)
    (sx : stop (S.lin.start x) = false) (ir : Irr (ctxOf first second ε) S.lin x y) (hz : IsL S.lin z)
    (ez : lx (ctxOf first second ε) S.lin z = lx (ctxOf first second ε) S.lin x) (hn : S.lin.sid z ≠ S.lin.sid y) :
    flag S.fromResult z = flag S.fromResult x := by
  set c := ctxOf first second ε with hc
  have w := h.wf
  have g := h.good
  obtain ⟨nc, hK, _⟩ := h.irr hx sx ir
  obtain ⟨u, v, t⟩ := ir.tee
  by_cases hzx : z = x
  · rw [hzx]
  have e : S.lin.start z = S.lin.start x := (g.eq_iff (w.memP z hz.1) (w.memP x hx.1)).mpr ez
  have sz : stop (S.lin.start z) = false := by rw [e]; exact sx
  have thx : Thru c (S.lin.sid x) (S.lin.start x) := w.thru hx (w.onL x hx) le_rfl (w.lr x hx).le
  have thz : Thru c (S.lin.sid z) (S.lin.start x) := by
    have := w.thru hz (w.onL z hz) le_rfl (w.lr z hz).le
    rwa [e] at this
  have hs : S.lin.sid x ≠ S.lin.sid z := fun k => by
    rcases w.same hx hz k (Ne.symm hzx) with q | q <;> have := w.lr x hx <;> have := w.lr z hz <;> linarith
  have hxy : S.lin.sid x ≠ S.lin.sid y := fun k => by rw [k] at hK; exact lt_irrefl _ hK
  have hKz : c.K (S.lin.sid y) < c.K (S.lin.sid z) := lt_of_lt_of_le hK ((ir.first z hz ez).resolve_right hn)
  -- the two segments
  obtain ⟨opE, nr, all⟩ : opB c (S.lin.sid z) = opB c (S.lin.sid x) ∧ ¬ c.Coll (S.lin.sid z) (S.lin.sid x) ∧
      ∀ k < c.N, Thru c k (S.lin.start x) → k = S.lin.sid y ∨ opB c k = opB c (S.lin.sid x) := by
    unfold opB
    have o : decide (u < c.F) = decide (v < c.F) := decide_eq_decide.mpr t.op
    rcases t.all _ (w.sidLt x hx) thx with k | k | k
    · exact absurd k hxy
    · rcases t.all _ (w.sidLt z hz) thz with q | q | q
      · exact absurd q hn
      · exact absurd (k.trans q.symm) hs
      · rw [k, q]
        exact ⟨o.symm, fun k => t.nc k.symm, fun k hk th => (t.all k hk th).imp_right fun q => by
          rcases q with rfl | rfl
          · rfl
          · exact o.symm⟩
    · rcases t.all _ (w.sidLt z hz) thz with q | q | q
      · exact absurd q hn
      · rw [k, q]
        exact ⟨o, t.nc, fun k hk th => (t.all k hk th).imp_right fun q => by
          rcases q with rfl | rfl
          · exact o
          · rfl⟩
      · exact absurd (k.trans q.symm) hs
  have kx : S.kind x = .none := (h.kind_none hx sx).mpr fun b hb hr => by
    by_contra hne
    exact ir.noRet w hx hb nc hne hr
  have kz : S.kind z = .none := (h.kind_none hz sz).mpr fun b hb hr => by
    by_contra hne
    have eb : lx c S.lin b = lx c S.lin x := hr.2.symm.trans ez
    have hb' : b ≠ x := by
      rintro rfl
      exact nr hr.1
    have e' : S.lin.start b = S.lin.start x := (g.eq_iff (w.memP b hb.1) (w.memP x hx.1)).mpr eb
    have thb : Thru c (S.lin.sid b) (S.lin.start x) := by
      have := w.thru hb (w.onL b hb) le_rfl (w.lr b hb).le
      rwa [e'] at this
    have ns : ∀ b' , IsL S.lin b' → lx c S.lin b' = lx c S.lin x → b' ≠ b → S.lin.sid b' ≠ S.lin.sid b := by
      intro b' h1 h2 h3 k
      have := w.lr b' h1
      have := w.lr b hb
      rcases w.same h1 hb k h3 with q | q <;> linarith
    have n1 := ns x hx rfl (Ne.symm hb')
    have n2 := ns z hz ez (Ne.symm hne)
    have hby : S.lin.sid b = S.lin.sid y := by
      rcases t.all _ (w.sidLt x hx) thx with k | k | k <;> rcases t.all _ (w.sidLt z hz) thz with q | q | q <;>
        rcases t.all _ (w.sidLt b hb) thb with p | p | p <;> first | exact p | (exfalso; grind)
    have := hr.1.1
    rw [hby] at this
    linarith
  rw [h.sel hx sx, h.sel hz sz, kx, kz, opE, h.other_eq hx hz sx e opE fun k hk ko th => ?_]
  rcases all k hk th with rfl | q
  · exact ⟨hK, hKz⟩
  · exact absurd q ko

/-- There are only two pieces at an irregular start, apart from that of the segment which goes on. -/
theorem Fin.irr_two (h : Fin ε op first second full1 full2 R1 R2 stop S M acc) {x y z1 z2 : ℕ} (hx : IsL S.lin x)
    (sx : stop (S.lin.start x) = false) (ir : Irr (ctxOf first second ε) S.lin x y) (hz1 : IsL S.lin z1) (hz2 : IsL S.lin z2)
    (e1 : lx (ctxOf first second ε) S.lin z1 = lx (ctxOf first second ε) S.lin x) (n1 : S.lin.sid z1 ≠ S.lin.sid y)
    (e2 : lx (ctxOf first second ε) S.lin z2 = lx (ctxOf first second ε) S.lin x) (n2 : S.lin.sid z2 ≠ S.lin.sid y)
    (k1 : z1 ≠ x) (k2 : z2 ≠ x) : z1 = z2 := by
  set c := ctxOf first second ε with hc
  have w := h.wf
  have g := h.good
  obtain ⟨nc, hK, _⟩ := h.irr hx sx ir
  obtain ⟨u, v, t⟩ := ir.tee
  have th : ∀ z, IsL S.lin z → lx c S.lin z = lx c S.lin x → S.lin.sid z = S.lin.sid y ∨ S.lin.sid z = u ∨ S.lin.sid z = v := by
    intro z hz ez
    have e : S.lin.start z = S.lin.start x := (g.eq_iff (w.memP z hz.1) (w.memP x hx.1)).mpr ez
    have := w.thru hz (w.onL z hz) le_rfl (w.lr z hz).le
    rw [e] at this
    exact t.all _ (w.sidLt z hz) this
  have ns : ∀ z z', IsL S.lin z → IsL S.lin z' → lx c S.lin z = lx c S.lin x → lx c S.lin z' = lx c S.lin x →
      S.lin.sid z = S.lin.sid z' → z = z' := by
    intro z z' h1 h2 h3 h4 k
    by_contra hne
    have := w.lr z h1
    have := w.lr z' h2
    rcases w.same h1 h2 k hne with q | q <;> linarith
  have nx : S.lin.sid x ≠ S.lin.sid y := fun k => by rw [k] at hK; exact lt_irrefl _ hK
  rcases (th x hx rfl).resolve_left nx with a | a <;> rcases (th z1 hz1 e1).resolve_left n1 with b | b <;>
    rcases (th z2 hz2 e2).resolve_left n2 with d | d
  · exact ns _ _ hz1 hz2 e1 e2 (b.trans d.symm)
  · exact absurd (ns _ _ hz1 hx e1 rfl (b.trans a.symm)) k1
  · exact absurd (ns _ _ hz2 hx e2 rfl (d.trans a.symm)) k2
  · exact ns _ _ hz1 hz2 e1 e2 (b.trans d.symm)
  · exact ns _ _ hz1 hz2 e1 e2 (b.trans d.symm)
  · exact absurd (ns _ _ hz2 hx e2 rfl (d.trans a.symm)) k2
  · exact absurd (ns _ _ hz1 hx e1 rfl (b.trans a.symm)) k1
  · exact ns _ _ hz1 hz2 e1 e2 (b.trans d.symm)

/-- The edges of a set which start where the given piece does, not below it, are even in number, if the piece starts
in the middle of a segment. -/
def Paired (c : Ctx) (S : Lin) {n : ℕ} (D : Darts (_root_.Fin n)) (k : _root_.Fin n → ℚ) (x : ℕ) (L : _root_.Fin n → Bool) : Prop :=
  (∃ y, Irr c S x y) → ∑ j, z (L j && (D.lf j && (decide (D.v j = lx c S x) && decide (c.K (S.sid x) ≤ k j)))) = 0

/-- There are no such edges when the piece is not selected. -/
theorem Fin.paired (h : Fin ε op first second full1 full2 R1 R2 stop S M acc)
    (cl : Close ε op first second full1 full2 stop) {x : ℕ} (hx : IsL S.lin x) (sx : stop (S.lin.start x) = false)
    (fx : flag S.fromResult x = false) (L : _root_.Fin (selEvents S acc).length → Bool) :
    Paired (ctxOf first second ε) S.lin (darts (h.evs cl))
      (fun i => slope (ctxOf first second ε) S.lin ((selEvents S acc).get i)) x L := by
  rintro ⟨y, ir⟩
  refine Finset.sum_eq_zero fun j _ => ?_
  have : ((darts (h.evs cl)).lf j && (decide ((darts (h.evs cl)).v j = lx (ctxOf first second ε) S.lin x) &&
      decide ((ctxOf first second ε).K (S.lin.sid x) ≤ slope (ctxOf first second ε) S.lin ((selEvents S acc).get j)))) = false := by
    rw [← Bool.not_eq_true]
    intro q
    rw [Bool.and_eq_true, Bool.and_eq_true, decide_eq_true_iff, decide_eq_true_iff] at q
    obtain ⟨q1, q2, q3⟩ := q
    obtain ⟨d1, d2, d3, d4, d5, d6⟩ := h.dart cl q1
    rw [d4] at q3
    rw [darts_v] at q2
    obtain ⟨_, hK, _⟩ := h.irr hx sx ir
    have := h.irr_sel hx sx ir d1 q2 (fun e => by rw [e] at q3; linarith)
    rw [d2, fx] at this
    cases this
  rw [this, Bool.and_false]; rfl

open Classical in
/-- The edges below a piece, from those below another one right below. -/
theorem Fin.dl_add (h : Fin ε op first second full1 full2 R1 R2 stop S M acc)
    (cl : Close ε op first second full1 full2 stop) {x a : ℕ} (hx : IsL S.lin x) (ha : IsL S.lin a)
    (hw : Within (ctxOf first second ε) stop (lx (ctxOf first second ε) S.lin x))
    (yl : lx (ctxOf first second ε) S.lin a ≤ lx (ctxOf first second ε) S.lin x)
    (yr : lx (ctxOf first second ε) S.lin x < rx (ctxOf first second ε) S.lin a)
    (yb : BelowE (ctxOf first second ε) (S.lin.sid a) (S.lin.sid x) (lx (ctxOf first second ε) S.lin x))
    (all : ∀ z, Popped S.lin z → lx (ctxOf first second ε) S.lin z ≤ lx (ctxOf first second ε) S.lin x →
      lx (ctxOf first second ε) S.lin x < rx (ctxOf first second ε) S.lin z →
      BelowE (ctxOf first second ε) (S.lin.sid z) (S.lin.sid x) (lx (ctxOf first second ε) S.lin x) →
      z = a ∨ BelowE (ctxOf first second ε) (S.lin.sid z) (S.lin.sid a) (lx (ctxOf first second ε) S.lin x))
    (L : _root_.Fin (selEvents S acc).length → Bool) :
    dl (darts (h.evs cl)) (fun i => slope (ctxOf first second ε) S.lin ((selEvents S acc).get i))
      (fun i => icept (ctxOf first second ε) S.lin ((selEvents S acc).get i)) L ((ctxOf first second ε).K (S.lin.sid x))
      ((ctxOf first second ε).C (S.lin.sid x)) (lx (ctxOf first second ε) S.lin x) =
    dl (darts (h.evs cl)) (fun i => slope (ctxOf first second ε) S.lin ((selEvents S acc).get i))
      (fun i => icept (ctxOf first second ε) S.lin ((selEvents S acc).get i)) L ((ctxOf first second ε).K (S.lin.sid a))
      ((ctxOf first second ε).C (S.lin.sid a)) (lx (ctxOf first second ε) S.lin x) +
    ∑ j, z (L j && decide ((selEvents S acc).get j = a)) := by
  set c := ctxOf first second ε with hc
  have w := h.wf
  set E := h.evs cl with hE
  have xr := w.lr x hx
  unfold dl
  rw [← Finset.sum_add_distrib]
  refine Finset.sum_congr rfl fun j _ => ?_
  by_cases hj : (darts E).lf j = true
  · have e1 := h.under_iff cl hj hx hw le_rfl xr
    have e2 := h.under_iff cl hj ha hw yl yr
    obtain ⟨d1, d2, d3, _⟩ := h.dart cl hj
    by_cases hja : (selEvents S acc).get j = a
    · have u1 := e1.mpr (by rw [hja]; exact ⟨yl, yr, yb⟩)
      have u2 : Face.under (darts E) (fun i => slope c S.lin ((selEvents S acc).get i))
          (fun i => icept c S.lin ((selEvents S acc).get i)) (lx c S.lin x)
          (c.K (S.lin.sid a) * lx c S.lin x + c.C (S.lin.sid a)) (c.K (S.lin.sid a)) j = false := by
        rw [← Bool.not_eq_true, e2, hja]
        exact fun q => belowE_irrefl q.2.2
      rw [u1, u2, decide_eq_true hja, Bool.and_true, Bool.and_false]
      simp [z]
    · rw [decide_eq_false hja, Bool.and_false]
      have : z false = 0 := rfl
      rw [this, add_zero]
      congr 2
      rw [Bool.eq_iff_iff, e1, e2]
      constructor
      · rintro ⟨k1, k2, k3⟩
        exact ⟨k1, k2, (all _ (h.popped d1 d3) k1 k2 k3).resolve_left hja⟩
      · rintro ⟨k1, k2, k3⟩
        exact ⟨k1, k2, belowE_trans k3 yb⟩
  · have hja : (selEvents S acc).get j ≠ a := by
      intro e
      apply hj
      rw [darts_lf, e]
      exact isLeft_iff.mpr ha.2
    rw [Bool.not_eq_true] at hj
    unfold Face.under
    rw [hj, decide_eq_false hja]
    simp [z]

/-- The edges on a segment before and after an irregular start. -/
theorem Fin.irr_even (h : Fin ε op first second full1 full2 R1 R2 stop S M acc)
    (cl : Close ε op first second full1 full2 stop) {x y a : ℕ} (hx : IsL S.lin x) (sx : stop (S.lin.start x) = false)
    (ir : Irr (ctxOf first second ε) S.lin x y) (ha : IsL S.lin a) (sa : S.lin.sid a = S.lin.sid y)
    (la : lx (ctxOf first second ε) S.lin a = lx (ctxOf first second ε) S.lin x)
    (ua : ∀ z, IsL S.lin z → lx (ctxOf first second ε) S.lin z = lx (ctxOf first second ε) S.lin x →
      S.lin.sid z = S.lin.sid y → z = a)
    {L : _root_.Fin (selEvents S acc).length → Bool} (hL : (darts (h.evs cl)).Ev L)
    (hp : Paired (ctxOf first second ε) S.lin (darts (h.evs cl))
      (fun i => slope (ctxOf first second ε) S.lin ((selEvents S acc).get i)) x L) :
    ∑ j, z (L j && decide ((selEvents S acc).get j = a)) = ∑ j, z (L j && decide ((selEvents S acc).get j = y)) := by
  set c := ctxOf first second ε with hc
  have w := h.wf
  have G := h.geo cl
  obtain ⟨nc, hK, _, _, hend, _⟩ := h.irr hx sx ir
  have hev := hL.even fun v => decide (v = lx c S.lin x)
  rw [sum_edges G.opp_opp G.lf_opp] at hev
  have hp := hp ⟨y, ir⟩
  have ly := w.lr y ir.pop.1
  have hay : a ≠ y := by
    intro e
    have := ir.ends
    rw [e] at la
    linarith
  have key : ∀ j, z ((darts (h.evs cl)).lf j && (L j && decide ((darts (h.evs cl)).v j = lx c S.lin x) ^^
      L ((darts (h.evs cl)).opp j) && decide ((darts (h.evs cl)).v ((darts (h.evs cl)).opp j) = lx c S.lin x))) =
      z (L j && decide ((selEvents S acc).get j = a)) + z (L j && decide ((selEvents S acc).get j = y)) +
      z (L j && ((darts (h.evs cl)).lf j && (decide ((darts (h.evs cl)).v j = lx c S.lin x) &&
        decide (c.K (S.lin.sid x) ≤ slope c S.lin ((selEvents S acc).get j))))) := by
    intro j
    by_cases hj : (darts (h.evs cl)).lf j = true
    · obtain ⟨d1, d2, d3, d4, d5, d6⟩ := h.dart cl hj
      rw [hL.opp, hj, Bool.true_and, Bool.true_and, d4, d6, darts_v]
      generalize hg : (selEvents S acc).get j = g at *
      by_cases ga : g = a
      · subst ga
        have r := w.lr g ha
        rw [decide_eq_true la, decide_eq_false (by linarith : ¬ rx c S.lin g = lx c S.lin x),
          decide_eq_true (rfl : g = g), decide_eq_false hay, decide_eq_false (by rw [sa]; exact not_le.mpr hK)]
        simp [z]
      · by_cases gy : g = y
        · subst gy
          have e1 : lx c S.lin g ≠ lx c S.lin x := by rw [← ir.ends]; exact ne_of_lt ly
          rw [decide_eq_false e1, decide_eq_true ir.ends, decide_eq_false ga, decide_eq_true (rfl : g = g)]
          simp [z]
        · rw [decide_eq_false ga, decide_eq_false gy, decide_eq_false (fun e => gy (hend g d1 e))]
          by_cases e : lx c S.lin g = lx c S.lin x
          · have : c.K (S.lin.sid x) ≤ c.K (S.lin.sid g) := (ir.first g d1 e).resolve_right fun q => ga (ua g d1 e q)
            rw [decide_eq_true e, decide_eq_true this]
            simp [z]
          · rw [decide_eq_false e]
            simp [z]
    · have n1 : (selEvents S acc).get j ≠ a := fun e => hj (by rw [darts_lf, e]; exact isLeft_iff.mpr ha.2)
      have n2 : (selEvents S acc).get j ≠ y := fun e => hj (by rw [darts_lf, e]; exact isLeft_iff.mpr ir.pop.1.2)
      rw [Bool.not_eq_true] at hj
      rw [hj, decide_eq_false n1, decide_eq_false n2]
      simp [z]
  rw [Finset.sum_congr rfl fun j _ => key j, Finset.sum_add_distrib, Finset.sum_add_distrib, hp, add_zero] at hev
  have h2 : ∀ p q : ZMod 2, p + q = 0 → p = q := by decide
  exact h2 _ _ hev

open Classical in
/-- The recorded event below gives the part of the plane right below. -/
theorem Fin.parity (h : Fin ε op first second full1 full2 R1 R2 stop S M acc)
    (cl : Close ε op first second full1 full2 stop) (nt : Sparse (ctxOf first second ε)) : ∀ n x,
    ((Finset.range (cnt S.lin)).filter fun y => toLex (lx (ctxOf first second ε) S.lin y,
      toLex ((ctxOf first second ε).K (S.lin.sid y), if S.lin.sid y < (ctxOf first second ε).F then 0 else 1)) <
      toLex (lx (ctxOf first second ε) S.lin x,
      toLex ((ctxOf first second ε).K (S.lin.sid x), if S.lin.sid x < (ctxOf first second ε).F then 0 else 1))).card = n →
    Popped S.lin x → stop (S.lin.start x) = false → ∀ L, (darts (h.evs cl)).Ev L →
    Paired (ctxOf first second ε) S.lin (darts (h.evs cl))
      (fun i => slope (ctxOf first second ε) S.lin ((selEvents S acc).get i)) x L →
    (bel S x = none → dl (darts (h.evs cl)) (fun i => slope (ctxOf first second ε) S.lin ((selEvents S acc).get i))
      (fun i => icept (ctxOf first second ε) S.lin ((selEvents S acc).get i)) L ((ctxOf first second ε).K (S.lin.sid x))
      ((ctxOf first second ε).C (S.lin.sid x)) (lx (ctxOf first second ε) S.lin x) = 0) ∧
    ∀ i, (darts (h.evs cl)).lf i = true → bel S x = some ((selEvents S acc).get i) →
      dl (darts (h.evs cl)) (fun i => slope (ctxOf first second ε) S.lin ((selEvents S acc).get i))
      (fun i => icept (ctxOf first second ε) S.lin ((selEvents S acc).get i)) L ((ctxOf first second ε).K (S.lin.sid x))
      ((ctxOf first second ε).C (S.lin.sid x)) (lx (ctxOf first second ε) S.lin x) =
      z (sideOf (darts (h.evs cl)) (fun i => slope (ctxOf first second ε) S.lin ((selEvents S acc).get i))
      (fun i => icept (ctxOf first second ε) S.lin ((selEvents S acc).get i)) L i) := by
  set c := ctxOf first second ε with hc
  have G := h.geo cl
  have w := h.wf
  set E := h.evs cl with hE
  obtain ⟨p, hI, hA⟩ := h.fin.adj nt
  intro n
  induction n using Nat.strong_induction_on with
  | _ n ih =>
    intro x hn hx sx L hL hP
    have hw : Within c stop (lx c S.lin x) := ⟨_, w.memP x hx.1.1, sx, le_rfl⟩
    have xr := w.lr x hx.1
    obtain ⟨y?, hb, ad⟩ := hA.adj x hx
    cases y? with
    | none =>
      have ad : Adj c S.lin x none := ad.resolve_right (by simp)
      have hb : bel S x = none := hb
      refine ⟨fun _ => ?_, fun i _ q => by rw [hb] at q; cases q⟩
      unfold dl
      refine Finset.sum_eq_zero fun j _ => ?_
      have : Face.under (darts E) (fun i => slope c S.lin ((selEvents S acc).get i))
          (fun i => icept c S.lin ((selEvents S acc).get i)) (lx c S.lin x)
          (c.K (S.lin.sid x) * lx c S.lin x + c.C (S.lin.sid x)) (c.K (S.lin.sid x)) j = false := by
        rw [← Bool.not_eq_true]
        intro q
        have hj := (Face.under_iff.mp q).1
        obtain ⟨k1, k2, k3⟩ := (h.under_iff cl hj hx.1 hw le_rfl xr).mp q
        obtain ⟨d1, d2, d3, _⟩ := h.dart cl hj
        obtain ⟨y, hy, _⟩ := ad.all _ (h.popped d1 d3) k1 k2 k3
        cases hy
      rw [this, Bool.and_false]; rfl
    | some y =>
      -- the edges below, in terms of those below the other one
      obtain ⟨yp, sy, main, nv, hlt⟩ : Popped S.lin y ∧ stop (S.lin.start y) = false ∧
          dl (darts E) (fun i => slope c S.lin ((selEvents S acc).get i))
            (fun i => icept c S.lin ((selEvents S acc).get i)) L (c.K (S.lin.sid x)) (c.C (S.lin.sid x)) (lx c S.lin x) =
          dl (darts E) (fun i => slope c S.lin ((selEvents S acc).get i))
            (fun i => icept c S.lin ((selEvents S acc).get i)) L (c.K (S.lin.sid y)) (c.C (S.lin.sid y)) (lx c S.lin y) +
            ∑ j, z (L j && decide ((selEvents S acc).get j = y)) ∧
          (flag S.fromResult y = true → S.isVertical y = false) ∧
          toLex (lx c S.lin y, toLex (c.K (S.lin.sid y), if S.lin.sid y < c.F then 0 else 1)) <
            toLex (lx c S.lin x, toLex (c.K (S.lin.sid x), if S.lin.sid x < c.F then 0 else 1)) := by
        rcases ad with ad | ⟨y', ey, ir⟩
        · obtain ⟨yp, yx, yl, yr, yb⟩ := ad.pop y rfl
          have sy : stop (S.lin.start y) = false := h.begun yp.1 yl hw
          refine ⟨yp, sy, ?_, fun hd => ?_, ?_⟩
          · rw [h.dl_add cl hx.1 yp.1 hw yl yr yb (fun u hu k1 k2 k3 => by
              obtain ⟨y', hy', q⟩ := ad.all u hu k1 k2 k3
              cases hy'
              exact q) L]
            obtain ⟨b, b1, cc⟩ := h.clear cl yp.1 hw yr
            rw [← cc.dl_const G hL le_rfl yl b1]
          · rw [← Bool.not_eq_true]
            intro q
            obtain ⟨v1, v2⟩ := vertical_on h.good w yp.1 hx.1 q yl yr
            rcases yb with (k | k) | k
            · linarith
            · linarith [k.2]
            · have hr := h.ret yp.1 hx.1 k.1 hw yl yr le_rfl xr
              have ky : S.kind y ≠ .none := fun q => yx ((h.kind_none yp.1 sy).mp q x hx.1 hr).symm
              have := h.ofSecond yp.1 sy hd ky
              unfold opB at this
              rw [decide_eq_false_iff_not] at this
              exact this k.2.1
          · rw [Prod.Lex.toLex_lt_toLex]
            rcases lt_or_eq_of_le yl with q | q
            · exact Or.inl q
            · right
              refine ⟨q, ?_⟩
              rw [Prod.Lex.toLex_lt_toLex]
              have es : S.lin.start y = S.lin.start x := (h.good.eq_iff (w.memP y yp.1.1) (w.memP x hx.1.1)).mpr q
              rcases yb with (k | k) | k
              · exfalso
                have o1 := w.onL y yp.1
                have o2 := w.onL x hx.1
                rw [es] at o1
                unfold Ctx.On at o1 o2
                unfold lx at k
                rw [← o1, ← o2] at k
                exact lt_irrefl _ k
              · exact Or.inl k.2
              · right
                refine ⟨k.1.1, ?_⟩
                show (if S.lin.sid y < c.F then 0 else 1) < (if S.lin.sid x < c.F then 0 else 1)
                rw [if_pos k.2.1, if_neg k.2.2]
                exact Nat.zero_lt_one
        · cases ey
          obtain ⟨nc, hK, on, ⟨a, ha, sa, la, ua⟩, hend, hmid⟩ := h.irr hx.1 sx ir
          have yl := w.lr y ir.pop.1
          rw [ir.ends] at yl
          have sy : stop (S.lin.start y) = false := h.begun ir.pop.1 yl.le hw
          have ar := w.lr a ha
          rw [la] at ar
          have bb : BelowE c (S.lin.sid a) (S.lin.sid x) (lx c S.lin x) := by rw [sa]; exact ir.below
          have fx : c.f (S.lin.sid x) (lx c S.lin x) = (S.lin.start x).y := (w.onL x hx.1).symm
          have fy : c.f (S.lin.sid y) (lx c S.lin x) = (S.lin.start x).y := on.symm
          refine ⟨ir.pop, sy, ?_, fun hd => ?_, ?_⟩
          · rw [h.dl_add cl hx.1 ha hw la.le ar bb (fun u hu k1 k2 k3 => by
              rcases ir.all u hu k1 k2 k3 with q | q
              · left
                refine ua u hu.1 ?_ q
                have hne : u ≠ y := by
                  rintro rfl
                  rw [ir.ends] at k2
                  exact lt_irrefl _ k2
                have := ir.ends
                rcases w.same hu.1 ir.pop.1 q hne with r | r <;> linarith
              · right; rw [sa]; exact q) L, h.irr_even cl hx.1 sx ir ha sa la ua hL hP, sa]
            congr 1
            obtain ⟨v, vP, vs, hv⟩ := hw
            have cc := h.clear_before cl ir.pop.1 (b := lx c S.lin x) (fun q hq k =>
              h.two.s1.mono.false ((h.good.le_iff hq vP).mpr (k.le.trans hv)) vs) ir.ends.ge
            refine (cc.dl_last G hL le_rfl yl (fun j hj ej => ?_) (fun j hj ej => ?_) (fun j hj j1 j2 => ?_)).symm
            · obtain ⟨d1, d2, d3, d4, d5, d6⟩ := h.dart cl hj
              rw [d4, d5]
              rw [darts_v] at ej
              have es : S.lin.start ((selEvents S acc).get j) = S.lin.start x :=
                (h.good.eq_iff (w.memP _ d1.1) (w.memP x hx.1.1)).mpr ej
              have fj : c.f (S.lin.sid ((selEvents S acc).get j)) (lx c S.lin x) = (S.lin.start x).y := by
                have := w.onL _ d1
                rw [es] at this
                exact this.symm
              rintro (q | q)
              · change c.f _ _ < c.f _ _ at q
                rw [fj, fy] at q
                exact lt_irrefl _ q
              · rcases ir.first _ d1 ej with r | r
                · have := q.2
                  linarith
                · have := q.2
                  rw [r] at this
                  exact lt_irrefl _ this
            · obtain ⟨d1, d2, d3, d4, d5, d6⟩ := h.dart cl hj
              rw [d4, d5]
              rw [d6] at ej
              rw [hend _ d1 ej]
              exact ⟨rfl, rfl⟩
            · obtain ⟨d1, d2, d3, d4, d5, d6⟩ := h.dart cl hj
              rw [d4, d5]
              rw [d6] at j2
              rw [darts_v] at j1
              exact hmid _ d1 j1 j2
          · rw [← Bool.not_eq_true]
            intro q
            have q' : S.isVertical a = true := by
              rw [vert_iff w ha, sa, ← vert_iff w ir.pop.1]; exact q
            obtain ⟨v1, v2⟩ := vertical_on h.good w ha hx.1 q' la.le ar
            rw [sa] at v2
            linarith
          · rw [Prod.Lex.toLex_lt_toLex]
            exact Or.inl yl
      have hfd : flag S.fromResult y = op.detects S y := hI.fr y yp.1.2 yp
      by_cases hd : flag S.fromResult y = true
      · -- the one below is selected
        have hb' : bel S x = some y := by
          rw [hb]
          change (if (!op.detects S y || S.isVertical y) = true then bel S y else some y) = some y
          rw [← hfd, hd, nv hd]
          rfl
        have ym : y ∈ selEvents S acc := (mem_selEvents h).mpr ⟨yp.1.1, sy, by rw [fromResult_left' yp.1.2]; exact hd⟩
        obtain ⟨i, hi⟩ := List.mem_iff_get.mp ym
        have il : (darts E).lf i = true := by rw [darts_lf, hi]; exact isLeft_iff.mpr yp.1.2
        refine ⟨fun q => absurd (hb'.symm.trans q) (by simp), fun i' _ q => ?_⟩
        have : i' = i := get_inj E (by rw [hb', Option.some_inj] at q; rw [← q, hi])
        subst this
        obtain ⟨d1, d2, d3, d4, d5, d6⟩ := h.dart cl il
        rw [hi] at d4 d5 d6
        have es : ∑ j, z (L j && decide ((selEvents S acc).get j = y)) = z (L i') := by
          rw [Finset.sum_eq_single i']
          · rw [decide_eq_true hi, Bool.and_true]
          · intro j _ hj
            rw [decide_eq_false (fun e => hj (get_inj E (by rw [e, hi]))), Bool.and_false]; rfl
          · intro q; exact absurd (Finset.mem_univ _) q
        have vi : (darts E).v i' = lx c S.lin y := by rw [darts_v, hi]
        rw [main, es]
        unfold sideOf
        rw [if_pos il, z_xor, z_bit, dn_eq_dl, vi]
        rw [hi, d4, d5]
      · -- the one below is not selected
        rw [Bool.not_eq_true] at hd
        have hb' : bel S x = bel S y := by
          rw [hb]
          change (if (!op.detects S y || S.isVertical y) = true then bel S y else some y) = bel S y
          rw [← hfd, hd]
          rfl
        have es : ∑ j, z (L j && decide ((selEvents S acc).get j = y)) = 0 := by
          refine Finset.sum_eq_zero fun j _ => ?_
          have : (selEvents S acc).get j ≠ y := by
            intro q
            have hj : (darts E).lf j = true := by rw [darts_lf, q]; exact isLeft_iff.mpr yp.1.2
            have := (h.dart cl hj).2.1
            rw [q, hd] at this
            cases this
          rw [decide_eq_false this, Bool.and_false]; rfl
        rw [main, es, add_zero, hb']
        refine ih _ ?_ y rfl yp sy L hL (h.paired cl yp.1 sy hd L)
        rw [← hn]
        refine Finset.card_lt_card ⟨fun u hu => ?_, fun hs => ?_⟩
        · rw [Finset.mem_filter] at hu ⊢
          exact ⟨hu.1, hu.2.trans hlt⟩
        · have : y ∈ (Finset.range (cnt S.lin)).filter fun u => toLex (lx c S.lin u,
              toLex (c.K (S.lin.sid u), if S.lin.sid u < c.F then 0 else 1)) <
              toLex (lx c S.lin x, toLex (c.K (S.lin.sid x), if S.lin.sid x < c.F then 0 else 1)) :=
            Finset.mem_filter.mpr ⟨Finset.mem_range.mpr yp.1.1, hlt⟩
          exact lt_irrefl _ (Finset.mem_filter.mp (hs this)).2

/-- The recorded event below a selected one is the next edge of the result below. -/
theorem Fin.recorded (h : Fin ε op first second full1 full2 R1 R2 stop S M acc)
    (cl : Close ε op first second full1 full2 stop) (nt : Sparse (ctxOf first second ε))
    (e : _root_.Fin (selEvents S acc).length) (he : (darts (h.evs cl)).lf e = true) (L : _root_.Fin (selEvents S acc).length → Bool)
    (hL : (darts (h.evs cl)).Ev L)
    (hP : Paired (ctxOf first second ε) S.lin (darts (h.evs cl))
      (fun i => slope (ctxOf first second ε) S.lin ((selEvents S acc).get i)) ((selEvents S acc).get e) L) :
    (bel S ((selEvents S acc).get e) = none → sideOf (darts (h.evs cl))
      (fun i => slope (ctxOf first second ε) S.lin ((selEvents S acc).get i))
      (fun i => icept (ctxOf first second ε) S.lin ((selEvents S acc).get i)) L ((darts (h.evs cl)).opp e) = false) ∧
    ∀ i, (darts (h.evs cl)).lf i = true → bel S ((selEvents S acc).get e) = some ((selEvents S acc).get i) →
      sideOf (darts (h.evs cl)) (fun i => slope (ctxOf first second ε) S.lin ((selEvents S acc).get i))
      (fun i => icept (ctxOf first second ε) S.lin ((selEvents S acc).get i)) L ((darts (h.evs cl)).opp e) =
      sideOf (darts (h.evs cl)) (fun i => slope (ctxOf first second ε) S.lin ((selEvents S acc).get i))
      (fun i => icept (ctxOf first second ε) S.lin ((selEvents S acc).get i)) L i := by
  have G := h.geo cl
  obtain ⟨d1, d2, d3, d4, d5, d6⟩ := h.dart cl he
  have hs : sideOf (darts (h.evs cl)) (fun i => slope (ctxOf first second ε) S.lin ((selEvents S acc).get i))
      (fun i => icept (ctxOf first second ε) S.lin ((selEvents S acc).get i)) L ((darts (h.evs cl)).opp e) =
      bit (dl (darts (h.evs cl)) (fun i => slope (ctxOf first second ε) S.lin ((selEvents S acc).get i))
      (fun i => icept (ctxOf first second ε) S.lin ((selEvents S acc).get i)) L
      ((ctxOf first second ε).K (S.lin.sid ((selEvents S acc).get e)))
      ((ctxOf first second ε).C (S.lin.sid ((selEvents S acc).get e)))
      (lx (ctxOf first second ε) S.lin ((selEvents S acc).get e))) := by
    unfold sideOf
    rw [G.lf_opp, he, G.opp_opp, if_neg (by simp), dn_eq_dl L e, d4, d5]
    rfl
  obtain ⟨k1, k2⟩ := h.parity cl nt _ _ rfl (h.popped d1 d3) d3 L hL hP
  refine ⟨fun q => ?_, fun i hi q => ?_⟩
  · rw [hs, k1 q]; decide
  · rw [hs, k2 i hi q, bit_z]

end

end Rene.Sweep
