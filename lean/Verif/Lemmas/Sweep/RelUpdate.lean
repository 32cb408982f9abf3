import Verif.Lemmas.Sweep.RelGroup
import Verif.Lemmas.Sweep.Annot
import Verif.Model.RelateLinear

/-! The update of the state of the relation by a complete group of events with a common start. -/

namespace Rene.Sweep
open Rene Spec

variable {c : Ctx} {S : Lin} {p : Point} {group : List ℕ}

/-- The segment is of the first (`true`) or second operand. -/
def Side (c : Ctx) (b : Bool) (i : ℕ) : Prop := decide (i < c.F) = b

/-- The point is on an original segment of the operand. -/
def InOp (c : Ctx) (b : Bool) (q : Point) : Prop :=
  ∃ i < c.N, Side c b i ∧ c.On i q ∧ c.X (c.A i) ≤ c.X q ∧ c.X q ≤ c.X (c.B i)

/-- Segments of one operand do not meet inside of one of them. -/
def Nod (c : Ctx) : Prop := ∀ i < c.N, ∀ j < c.N, i ≠ j → (i < c.F ↔ j < c.F) → ∀ q, c.On i q → c.On j q →
  c.X (c.A i) < c.X q → c.X q < c.X (c.B i) → c.X (c.A j) ≤ c.X q → c.X q ≤ c.X (c.B j) → False

/-- Overlapping segments of both operands start or go through the point. -/
def OverAt (c : Ctx) (q : Point) : Prop := ∃ i < c.N, ∃ j < c.N, Side c true i ∧ Side c false j ∧ c.On i q ∧ c.Coll i j ∧
  Spans c i (c.X q) ∧ Spans c j (c.X q)

/-- The operand is inside of the other one at the point and immediately to the right of it. -/
def LocalCov (c : Ctx) (b : Bool) (q : Point) : Prop := (InOp c b q → InOp c (!b) q) ∧
  ∀ i < c.N, Side c b i → c.On i q → Spans c i (c.X q) →
    ∃ j < c.N, Side c (!b) j ∧ c.Coll i j ∧ Spans c j (c.X q)

theorem isFirst_eq (w : Wf c S) {x : ℕ} {b : Bool} : S.isFirst x = b ↔ Side c b (S.sid (S.toLeft x)) := by
  unfold Lin.isFirst Lin.leftFirst Side
  rw [w.fc]

/-- The group is complete. -/
structure Done (c : Ctx) (S : Lin) (p : Point) (group : List ℕ) : Prop extends GInv c S p group where
  hq : ∀ y ∈ S.queue, c.X p < lx c S y
  ne : group ≠ []

theorem Done.mem' (h : Done c S p group) {x : ℕ} (hx : x < cnt S) (hp : S.start x = p) : x ∈ group := by
  rw [h.mem]
  refine ⟨hx, fun z => ?_, hp⟩
  have := h.hq x z
  unfold lx at this
  rw [hp] at this
  exact lt_irrefl _ this

theorem Done.noPass (g : c.Good) (h : Done c S p group) : ∀ e, IsL S e → c.On (S.sid e) p → ¬ Int c S e (c.X p) :=
  h.inv.noPass g h.hq

/-- Which operands the point belongs to. -/
theorem Done.inOp_iff (g : c.Good) (h : Done c S p group) (b : Bool) : InOp c b p ↔ ∃ x ∈ group, S.isFirst x = b := by
  have w := h.inv.wf
  constructor
  · rintro ⟨i, hi, hs, hon, h1, h2⟩
    obtain ⟨e, he, rfl, k1, k2⟩ := w.cover i hi (c.X p) h1 h2
    have hn := h.noPass g e he hon
    by_cases q : lx c S e < c.X p
    · have hr : rx c S e = c.X p := by
        by_contra k
        exact hn ⟨q, lt_of_le_of_ne k2 (Ne.symm k)⟩
      have hend : S.start (S.opp e) = p := (g.eq_iff (w.memP _ (w.oppLt e he.1)) h.inv.pP).mpr hr
      refine ⟨S.opp e, h.mem' (w.oppLt e he.1) hend, ?_⟩
      rw [isFirst_eq w]
      have : ¬ isLeft (S.opp e) = true := by
        rw [isLeft_iff]
        have := w.oppPar e he.1
        have := he.2
        omega
      rw [toLeft_right this, w.oppOpp e he.1]
      exact hs
    · have hl : lx c S e = c.X p := le_antisymm k1 (not_lt.mp q)
      have hst : S.start e = p := (g.eq_iff (w.memP _ he.1) h.inv.pP).mpr hl
      refine ⟨e, h.mem' he.1 hst, ?_⟩
      rw [isFirst_eq w, toLeft_left (isLeft_iff.mpr he.2)]
      exact hs
  · rintro ⟨x, hx, hb⟩
    obtain ⟨k1, k2, k3⟩ := (h.mem x).mp hx
    rw [isFirst_eq w] at hb
    have hL := w.toLeft k1
    refine ⟨_, w.sidLt _ hL, hb, ?_⟩
    have ia := w.inA _ hL
    have ib := w.inB _ hL
    have lr := w.lr _ hL
    by_cases hl : isLeft x = true
    · rw [toLeft_left hl] at *
      have := w.onL x hL
      rw [k3] at this
      have e1 : lx c S x = c.X p := by unfold lx; rw [k3]
      exact ⟨this, by linarith, by linarith⟩
    · rw [toLeft_right hl] at *
      have := w.onR _ hL
      have e0 : S.end (S.opp x) = p := by unfold Lin.end; rw [w.oppOpp x k1]; exact k3
      rw [e0] at this
      have e1 : rx c S (S.opp x) = c.X p := by unfold rx; rw [e0]
      exact ⟨this, by linarith, by linarith⟩

/-- A left event inside of its original segment. -/
theorem late_inside (w : Wf c S) {y : ℕ} (hy : IsL S y) (hn : 2 * c.N ≤ y) : c.X (c.A (S.sid y)) < lx c S y := by
  refine lt_of_le_of_ne (w.inA y hy) fun z => ?_
  have hs := w.sidLt y hy
  have hbig := w.big
  have hx : IsL S (2 * S.sid y) := ⟨by omega, by omega⟩
  have hst := w.initA _ hs
  have el : lx c S (2 * S.sid y) = c.X (c.A (S.sid y)) := by unfold lx; rw [hst]
  have e0 := w.initSid _ hs
  have lr1 := w.lr _ hx
  have lr2 := w.lr y hy
  rcases w.noOv (2 * S.sid y) y hx hy (by omega) (by unfold SameOp; rw [e0]) (by
      unfold CollE; rw [e0]; exact Ctx.Coll.refl _) with k | k <;> linarith

/-- Lefts of the group. -/
theorem Done.left (h : Done c S p group) {x : ℕ} (hx : x ∈ group.filter isLeft) :
    x ∈ group ∧ isLeft x = true ∧ IsL S x ∧ S.start x = p ∧ lx c S x = c.X p ∧ c.On (S.sid x) p := by
  obtain ⟨h1, h2⟩ := List.mem_filter.mp hx
  obtain ⟨-, h3, h4⟩ := h.left_mem h1 h2
  have h5 := ((h.mem x).mp h1).2.2
  have := h.inv.wf.onL x h3
  rw [h5] at this
  exact ⟨h1, h2, h3, h5, h4, this⟩

theorem coll_of_K {i j : ℕ} {q : Point} (h1 : c.On i q) (h2 : c.On j q) (h : c.K i = c.K j) : c.Coll i j := by
  refine ⟨h, ?_⟩
  unfold Ctx.On Ctx.f at h1 h2
  rw [h1, h] at h2
  linarith

theorem Done.end_of_coll (g : c.Good) (h : Done c S p group) {x y : ℕ} (hx : x ∈ group.filter isLeft)
    (hy : y ∈ group.filter isLeft) (hc : CollE c S x y) : S.end x = S.end y := by
  obtain ⟨x1, x2, x3, -⟩ := h.left hx
  obtain ⟨y1, y2, y3, -⟩ := h.left hy
  have := h.eq x x1 y y1 x2 y2 hc
  have w := h.inv.wf
  exact (g.eq_iff (w.memP _ (w.oppLt x x3.1)) (w.memP _ (w.oppLt y y3.1))).mpr this

theorem Done.coll_of_end (h : Done c S p group) {x y : ℕ} (hx : x ∈ group.filter isLeft)
    (hy : y ∈ group.filter isLeft) (he : S.end x = S.end y) : CollE c S x y := by
  obtain ⟨x1, x2, x3, x4, x5, x6⟩ := h.left hx
  obtain ⟨y1, y2, y3, y4, y5, y6⟩ := h.left hy
  have w := h.inv.wf
  have e1 := w.onR x x3
  have e2 := w.onR y y3
  rw [← he] at e2
  have := w.lr x x3
  rw [x5] at this
  exact Ctx.coll_of_two this.ne (x6.symm.trans y6) (e1.symm.trans e2)

/-- Twins are of different operands. -/
theorem Done.twin_ops (h : Done c S p group) {x y : ℕ} (hx : x ∈ group.filter isLeft)
    (hy : y ∈ group.filter isLeft) (hne : x ≠ y) (he : S.end x = S.end y) :
    decide (S.sid x < c.F) ≠ decide (S.sid y < c.F) := by
  intro z
  obtain ⟨x1, x2, x3, x4, x5, x6⟩ := h.left hx
  obtain ⟨y1, y2, y3, y4, y5, y6⟩ := h.left hy
  have w := h.inv.wf
  have lr1 := w.lr x x3
  have lr2 := w.lr y y3
  rcases w.noOv x y x3 y3 hne (by unfold SameOp; simpa using z) (h.coll_of_end hx hy he) with k | k <;> linarith

/-- Next to twins there are no left events from the inside of a segment. -/
theorem Done.not_late (hn : Nod c) (h : Done c S p group) {x z y : ℕ} (hx : x ∈ group.filter isLeft)
    (hz : z ∈ group.filter isLeft) (hne : x ≠ z) (he : S.end x = S.end z) (hy : y ∈ group.filter isLeft)
    (hnc : ¬ CollE c S x y) : y < 2 * c.N := by
  by_contra k
  obtain ⟨x1, x2, x3, x4, x5, x6⟩ := h.left hx
  obtain ⟨y1, y2, y3, y4, y5, y6⟩ := h.left hy
  obtain ⟨z1, z2, z3, z4, z5, z6⟩ := h.left hz
  have w := h.inv.wf
  have hl := late_inside w y3 (not_lt.mp k)
  rw [y5] at hl
  have hr : c.X p < c.X (c.B (S.sid y)) := by
    have := w.lr y y3
    have := w.inB y y3
    linarith
  have hop := h.twin_ops hx hz hne he
  have key : ∀ {u}, u ∈ group.filter isLeft → ¬ CollE c S u y → (S.sid y < c.F ↔ S.sid u < c.F) → False := by
    intro u hu hc hs
    obtain ⟨u1, u2, u3, u4, u5, u6⟩ := h.left hu
    refine hn _ (w.sidLt y y3) _ (w.sidLt u u3) (fun e => ?_) hs p y6 u6 hl hr ?_ ?_
    · apply hc; unfold CollE; rw [e]; exact Ctx.Coll.refl _
    · rw [← u5]; exact w.inA u u3
    · have := w.lr u u3
      have := w.inB u u3
      linarith
  have hzc : ¬ CollE c S z y := fun q => hnc (Ctx.Coll.trans (h.coll_of_end hx hz he) q)
  by_cases a : (S.sid y < c.F ↔ S.sid x < c.F)
  · exact key hx hnc a
  · refine key hz hzc ?_
    by_cases b : S.sid x < c.F <;> by_cases d : S.sid z < c.F <;> by_cases e : S.sid y < c.F <;> simp_all

/-- The groups of the lefts by their ends. -/
theorem Done.groups (g : c.Good) (hn : Nod c) (h : Done c S p group) :
    (∀ gr ∈ groupby S.end (group.filter isLeft), (∃ x ∈ group.filter isLeft, gr.2 = [x] ∧
        ∀ z ∈ group.filter isLeft, S.end z = S.end x → z = x) ∨
      ∃ x ∈ group.filter isLeft, ∃ z ∈ group.filter isLeft, x ≠ z ∧ S.end x = S.end z ∧ gr.2 = [x, z]) ∧
    ∀ x ∈ group.filter isLeft, ∃ gr ∈ groupby S.end (group.filter isLeft), gr.1 = S.end x ∧ x ∈ gr.2 := by
  cases hL : group.filter isLeft with
  | nil => simp [groupby]
  | cons l1 rest =>
    obtain ⟨o1, o2, o3⟩ := h.ord l1 rest hL
    have nd := h.nd.filter (p := isLeft)
    have nd' := nd
    rw [hL, List.nodup_cons] at nd
    have mem : ∀ {x}, x ∈ l1 :: rest → x ∈ group.filter isLeft := fun hx => by rw [hL]; exact hx
    have memr : ∀ {x}, x ∈ rest → x ∈ group.filter isLeft := fun hx => mem (List.mem_cons_of_mem _ hx)
    have mem1 : l1 ∈ group.filter isLeft := mem List.mem_cons_self
    have on : ∀ {x}, x ∈ group.filter isLeft → c.On (S.sid x) p := fun hx => (h.left hx).2.2.2.2.2
    obtain ⟨s1, -, s3, -⟩ := groupby_spec S.end (fun x y => (x = l1 ∧ y ∈ rest) ∨
      (x ∈ rest ∧ y ∈ rest ∧ c.K (S.sid x) ≤ c.K (S.sid y))) (l1 :: rest) (by
        rw [List.pairwise_cons]
        refine ⟨fun y hy => Or.inl ⟨rfl, hy⟩, ?_⟩
        exact List.Pairwise.imp_of_mem (fun ha hb hab => Or.inr ⟨ha, hb, hab⟩) o1) (by
        intro x hx y hy z hz hxy hyz he
        rcases hyz with ⟨rfl, hz'⟩ | ⟨hy', hz', hK⟩
        · rcases hxy with ⟨-, k⟩ | ⟨-, k, -⟩ <;> exact absurd k nd.1
        · rcases hxy with ⟨rfl, -⟩ | ⟨hx', -, hK'⟩
          · have hne : x ≠ z := by rintro rfl; exact nd.1 hz'
            by_contra q
            have hnc : ¬ CollE c S x y := fun hc => q (h.end_of_coll g mem1 (memr hy') hc).symm
            have hlate := h.not_late hn mem1 (memr hz') hne he (memr hy') hnc
            rcases o3 y (Or.inl hy') with k | k
            · have := (h.coll_of_end mem1 (memr hz') he).1
              exact hnc (coll_of_K (on mem1) (on (memr hy')) (by linarith))
            · omega
          · have := (h.coll_of_end (memr hx') (memr hz') he).1
            exact (h.end_of_coll g (memr hx') (memr hy')
              (coll_of_K (on (memr hx')) (on (memr hy')) (by linarith))).symm)
    constructor
    · intro gr hgr
      obtain ⟨t1, t2⟩ := s1 gr hgr
      rw [← hL] at t1
      have hin : ∀ {x}, x ∈ gr.2 → x ∈ group.filter isLeft ∧ S.end x = gr.1 := by
        intro x hx
        rw [t1, List.mem_filter, decide_eq_true_iff] at hx
        exact hx
      have hnd : gr.2.Nodup := by rw [t1]; exact nd'.filter _
      rw [← hL]
      match hg : gr.2 with
      | [] => exact absurd hg t2
      | [x] =>
        rw [hg] at hin
        obtain ⟨k1, k2⟩ := hin List.mem_cons_self
        refine Or.inl ⟨x, k1, rfl, fun z hz hez => ?_⟩
        have : z ∈ gr.2 := by rw [t1, List.mem_filter, decide_eq_true_iff]; exact ⟨hz, hez.trans k2⟩
        rw [hg, List.mem_singleton] at this
        exact this
      | [x, z] =>
        rw [hg] at hin hnd
        obtain ⟨k1, k2⟩ := hin (x := x) (by simp)
        obtain ⟨j1, j2⟩ := hin (x := z) (by simp)
        refine Or.inr ⟨x, k1, z, j1, ?_, k2.trans j2.symm, rfl⟩
        rintro rfl
        simp at hnd
      | x :: z :: u :: r =>
        exfalso
        rw [hg] at hin hnd
        obtain ⟨k1, k2⟩ := hin (x := x) (by simp)
        obtain ⟨j1, j2⟩ := hin (x := z) (by simp)
        obtain ⟨i1, i2⟩ := hin (x := u) (by simp)
        simp only [List.nodup_cons, List.mem_cons, not_or] at hnd
        have a1 := h.twin_ops k1 j1 hnd.1.1 (k2.trans j2.symm)
        have a2 := h.twin_ops k1 i1 hnd.1.2.1 (k2.trans i2.symm)
        have a3 := h.twin_ops j1 i1 hnd.2.1.1 (j2.trans i2.symm)
        revert a1 a2 a3
        generalize decide (S.sid x < c.F) = a
        generalize decide (S.sid z < c.F) = b
        generalize decide (S.sid u < c.F) = d
        revert a b d
        decide
    · intro x hx
      obtain ⟨gr, hgr, hk⟩ := List.mem_map.mp (s3 x hx)
      refine ⟨gr, hgr, hk, ?_⟩
      rw [(s1 gr hgr).1, List.mem_filter, decide_eq_true_iff]
      exact ⟨hx, hk.symm⟩

/-- The flag of the operand. -/
def sub (st : RelationState) (b : Bool) : Bool := if b then st.firstIsSubset else st.secondIsSubset

/-- The folding over the groups. -/
theorem fold_spec (S : Lin) : ∀ (l : List (Point × List ℕ)) (st : RelationState),
    (∀ gr ∈ l, gr.2.length = 1 ∨ gr.2.length = 2) →
    let st' := l.foldl (fun state g => RelationState.detectGroup S state g.2) st
    (∀ b, sub st' b = true ↔ sub st b = true ∧ ∀ gr ∈ l, ∀ x, gr.2 = [x] → S.isFirst x ≠ b) ∧
    (st'.hasOverlap = true ↔ st.hasOverlap = true ∨ ∃ gr ∈ l, gr.2.length = 2) ∧
    st'.ok = st.ok ∧ st'.hasIntersection = st.hasIntersection ∧ st'.hasCrossing = st.hasCrossing := by
  intro l
  induction l with
  | nil => intro st _; simp
  | cons gr l ih =>
    intro st hl
    have hl1 := hl gr List.mem_cons_self
    obtain ⟨i1, i2, i3, i4, i5⟩ := ih (RelationState.detectGroup S st gr.2)
      (fun x hx => hl x (List.mem_cons_of_mem _ hx))
    simp only [List.foldl_cons]
    rw [i3, i4, i5]
    refine ⟨fun b => ?_, ?_, ?_⟩
    · rw [i1]
      match hg : gr.2 with
      | [] => rw [hg] at hl1; simp at hl1
      | [x] =>
        rw [List.forall_mem_cons]
        have : sub (RelationState.detectGroup S st [x]) b = true ↔ sub st b = true ∧ S.isFirst x ≠ b := by
          unfold RelationState.detectGroup sub
          cases hf : S.isFirst x <;> cases b <;> simp [hf]
        rw [this, hg]
        simp only [List.cons.injEq, and_true, forall_eq']
        tauto
      | x :: z :: r =>
        rw [List.forall_mem_cons]
        have : sub (RelationState.detectGroup S st (x :: z :: r)) b = sub st b := by
          unfold RelationState.detectGroup sub
          cases b <;> simp
        rw [this, hg]
        simp
    · rw [i2]
      match hg : gr.2 with
      | [] => rw [hg] at hl1; simp at hl1
      | [x] =>
        have : (RelationState.detectGroup S st [x]).hasOverlap = st.hasOverlap := by
          unfold RelationState.detectGroup
          cases hf : S.isFirst x <;> simp [hf]
        rw [this]
        simp [hg]
      | [x, z] =>
        unfold RelationState.detectGroup
        simp [hg]
      | x :: z :: u :: r => rw [hg] at hl1; simp at hl1
    · match hg : gr.2 with
      | [] => rw [hg] at hl1; simp at hl1
      | [x] =>
        unfold RelationState.detectGroup
        cases hf : S.isFirst x <;> simp [hf]
      | [x, z] =>
        unfold RelationState.detectGroup
        simp
      | x :: z :: u :: r => rw [hg] at hl1; simp at hl1

/-- A segment going on to the right from the point has a left event there. -/
theorem Done.exists_left (g : c.Good) (h : Done c S p group) {i : ℕ} (hi : i < c.N) (hon : c.On i p)
    (hs : Spans c i (c.X p)) : ∃ x ∈ group.filter isLeft, S.sid x = i := by
  have w := h.inv.wf
  obtain ⟨e, he, rfl, k1, k2⟩ := w.cover' hi hs
  have hl : lx c S e = c.X p := by
    refine le_antisymm k1 (not_lt.mp fun q => h.noPass g e he hon ⟨q, k2⟩)
  have hst : S.start e = p := (g.eq_iff (w.memP _ he.1) h.inv.pP).mpr hl
  exact ⟨e, List.mem_filter.mpr ⟨h.mem' he.1 hst, isLeft_iff.mpr he.2⟩, rfl⟩

theorem Done.left_spans (h : Done c S p group) {x : ℕ} (hx : x ∈ group.filter isLeft) :
    Spans c (S.sid x) (c.X p) := by
  obtain ⟨x1, x2, x3, x4, x5, x6⟩ := h.left hx
  have := h.inv.wf.lr x x3
  exact h.inv.wf.spans x3 x5.le (by linarith)

theorem allSame_iff : ∀ l : List Bool, allSame l = false ↔ true ∈ l ∧ false ∈ l := by
  intro l
  cases l with
  | nil => simp [allSame]
  | cons a r =>
    have : allSame (a :: r) = r.all (fun x => x == a) := rfl
    rw [this, List.all_eq_false]
    cases a <;> simp

theorem detectCrossing_same (S : Lin) (st : RelationState) (group : List ℕ) :
    (∀ b, sub (st.detectCrossing S group) b = sub st b) ∧ (st.detectCrossing S group).hasOverlap = st.hasOverlap ∧
    (st.detectCrossing S group).ok = st.ok ∧ (st.detectCrossing S group).hasIntersection = st.hasIntersection := by
  unfold RelationState.detectCrossing
  by_cases h : (!st.hasCrossing && S.hasCrossing group) = true
  · rw [if_pos h]; exact ⟨fun b => by cases b <;> rfl, rfl, rfl, rfl⟩
  · rw [if_neg h]; exact ⟨fun b => rfl, rfl, rfl, rfl⟩

/-- What the update of the state says about the point. -/
theorem Done.update (g : c.Good) (hn : Nod c) (h : Done c S p group) (st : RelationState) :
    (∀ b, sub (st.update S group) b = true ↔ sub st b = true ∧ LocalCov c b p) ∧
    ((st.update S group).hasOverlap = true ↔ st.hasOverlap = true ∨ OverAt c p) ∧
    ((st.update S group).hasIntersection = true ↔ st.hasIntersection = true ∨ (InOp c true p ∧ InOp c false p)) ∧
    (st.update S group).ok = st.ok := by
  have w := h.inv.wf
  have hside : ∀ {x b}, x ∈ group.filter isLeft → (S.isFirst x = b ↔ Side c b (S.sid x)) := by
    intro x b hx
    rw [isFirst_eq w, toLeft_left (h.left hx).2.1]
  have hint : S.hasIntersection group = true ↔ InOp c true p ∧ InOp c false p := by
    unfold Lin.hasIntersection
    rw [Bool.not_eq_true', allSame_iff, h.inOp_iff g, h.inOp_iff g]
    simp only [List.mem_map]
  have hover : OverAt c p → InOp c true p ∧ InOp c false p := by
    rintro ⟨i, hi, j, hj, si, sj, on, hc, p1, p2⟩
    exact ⟨⟨i, hi, si, on, p1.1, p1.2.le⟩, j, hj, sj, Ctx.On.coll hc on, p2.1, p2.2.le⟩
  unfold RelationState.update
  by_cases hi : S.hasIntersection group = true
  · rw [if_pos hi]
    obtain ⟨g1, g2⟩ := h.groups g hn
    obtain ⟨d1, d2, d3, d4⟩ := detectCrossing_same S
      (({ st with hasIntersection := true } : RelationState).detectTouchOrOverlap S group) group
    have f := fold_spec S (groupby S.end (group.filter isLeft)) { st with hasIntersection := true } (by
      intro gr hgr
      rcases g1 gr hgr with ⟨x, -, e, -⟩ | ⟨x, -, z, -, -, -, e⟩ <;> rw [e] <;> simp)
    obtain ⟨f1, f2, f3, f4, f5⟩ := f
    have e0 : ∀ s : RelationState, (groupby S.end (group.filter isLeft)).foldl
      (fun state g => RelationState.detectGroup S state g.2) s = s.detectTouchOrOverlap S group := fun _ => rfl
    rw [e0] at f1 f2 f3 f4 f5
    rw [d2, d3, d4, f2, f3, f4]
    have hb := hint.mp hi
    have hcom : ∀ b, InOp c b p := by intro b; cases b; exact hb.2; exact hb.1
    refine ⟨fun b => ?_, ?_, by simp [hb.1, hb.2], rfl⟩
    · rw [d1, f1]
      have e1 : sub { st with hasIntersection := true } b = sub st b := by cases b <;> rfl
      rw [e1]
      refine and_congr_right fun _ => ⟨fun k => ⟨fun _ => hcom _, fun i hi si on sp => ?_⟩, fun k gr hgr x hx hf => ?_⟩
      · obtain ⟨x, hx, rfl⟩ := h.exists_left g hi on sp
        obtain ⟨gr, hgr, -, hxg⟩ := g2 x hx
        have tw : ∃ z ∈ group.filter isLeft, x ≠ z ∧ S.end x = S.end z := by
          rcases g1 gr hgr with ⟨y, -, e, -⟩ | ⟨y, hy, z, hz, hne, he, e⟩
          · rw [e, List.mem_singleton] at hxg
            subst hxg
            exact absurd ((hside hx).mpr si) (k gr hgr x e)
          · rw [e] at hxg
            simp only [List.mem_cons, List.not_mem_nil, or_false] at hxg
            rcases hxg with rfl | rfl
            · exact ⟨z, hz, hne, he⟩
            · exact ⟨y, hy, hne.symm, he.symm⟩
        obtain ⟨z, hz, hne, he⟩ := tw
        refine ⟨S.sid z, w.sidLt z (h.left hz).2.2.1, ?_, h.coll_of_end hx hz he, h.left_spans hz⟩
        have := h.twin_ops hx hz hne he
        unfold Side at si ⊢
        rw [si] at this
        exact (Bool.eq_not_of_ne this.symm)
      · rcases g1 gr hgr with ⟨y, hy, e, hu⟩ | ⟨y, -, z, -, -, -, e⟩
        · rw [e] at hx
          injection hx with hx
          subst hx
          obtain ⟨-, -, x3, -, -, x6⟩ := h.left hy
          have sx := (hside hy).mp hf
          obtain ⟨j, hj, sj, hc, sp⟩ := k.2 _ (w.sidLt y x3) sx x6 (h.left_spans hy)
          obtain ⟨z, hz, rfl⟩ := h.exists_left g hj (Ctx.On.coll hc x6) sp
          have := hu z hz (h.end_of_coll g hz hy (Ctx.Coll.symm hc))
          subst this
          unfold Side at sx sj
          rw [sx] at sj
          cases b <;> simp at sj
        · rw [e] at hx; simp at hx
    · refine or_congr_right ⟨fun ⟨gr, hgr, hl⟩ => ?_, fun ⟨i, hi, j, hj, si, sj, on, hc, p1, p2⟩ => ?_⟩
      · rcases g1 gr hgr with ⟨x, -, e, -⟩ | ⟨x, hx, z, hz, hne, he, e⟩
        · rw [e] at hl; simp at hl
        · have k := h.twin_ops hx hz hne he
          have hc := h.coll_of_end hx hz he
          obtain ⟨-, -, x3, -, -, x6⟩ := h.left hx
          obtain ⟨-, -, z3, -, -, z6⟩ := h.left hz
          by_cases q : S.sid x < c.F
          · refine ⟨_, w.sidLt x x3, _, w.sidLt z z3, by unfold Side; simp [q], ?_, x6, hc, h.left_spans hx,
              h.left_spans hz⟩
            unfold Side; simp [q] at k ⊢; exact k
          · refine ⟨_, w.sidLt z z3, _, w.sidLt x x3, ?_, by unfold Side; simp [q], z6, hc.symm, h.left_spans hz,
              h.left_spans hx⟩
            unfold Side; simp [q] at k ⊢; exact k
      · obtain ⟨x, hx, rfl⟩ := h.exists_left g hi on p1
        obtain ⟨z, hz, rfl⟩ := h.exists_left g hj (Ctx.On.coll hc on) p2
        have he := h.end_of_coll g hx hz hc
        have hne : x ≠ z := by
          rintro rfl
          unfold Side at si sj
          rw [si] at sj
          exact absurd sj (by decide)
        obtain ⟨gr, hgr, hk, hxg⟩ := g2 x hx
        refine ⟨gr, hgr, ?_⟩
        rcases g1 gr hgr with ⟨y, -, e, hu⟩ | ⟨y, -, u, -, -, -, e⟩
        · rw [e, List.mem_singleton] at hxg
          subst hxg
          exact absurd (hu z hz he.symm) hne.symm
        · rw [e]; rfl
  · rw [if_neg hi]
    have hno : ¬ (InOp c true p ∧ InOp c false p) := fun z => hi (hint.mpr z)
    cases hg : group with
    | nil => exact absurd hg h.ne
    | cons x r =>
      have hx : x ∈ group := by rw [hg]; exact List.mem_cons_self
      have hin : InOp c (S.isFirst x) p := (h.inOp_iff g _).mpr ⟨x, hx, rfl⟩
      have hnot : ¬ InOp c (!S.isFirst x) p := by
        intro z
        cases hf : S.isFirst x <;> rw [hf] at z hin
        · exact hno ⟨z, hin⟩
        · exact hno ⟨hin, z⟩
      have hov : ¬ OverAt c p := fun z => hno (hover z)
      have hsub : ∀ b, LocalCov c b p ↔ S.isFirst x ≠ b := by
        intro b
        constructor
        · rintro k rfl
          exact hnot (k.1 hin)
        · intro k
          have hb : b = !S.isFirst x := by
            cases b <;> cases hf : S.isFirst x <;> simp_all
          subst hb
          exact ⟨fun z => absurd z hnot, fun i hi si on sp => absurd ⟨i, hi, si, on, sp.1, sp.2.le⟩ hnot⟩
      simp only [hno, hov, or_false]
      refine ⟨fun b => ?_, ?_⟩
      · rw [hsub]
        unfold sub
        cases hf : S.isFirst x <;> cases b <;> simp
      · cases hf : S.isFirst x <;> simp

end Rene.Sweep
