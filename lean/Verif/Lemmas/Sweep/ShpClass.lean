import Verif.Lemmas.Sweep.ShpKls

/-! # The classification of the events of the shaped sweep -/

namespace Rene.Sweep
open Rene.Face Finset Spec

/-- What is fixed for two shapes. -/
structure Duo (c : Ctx) (inte : ℕ → Bool) (q : Bool → ℕ → ℚ → Bool) : Prop where
  g : c.Good
  dir : Dir c inte
  lab : ∀ T, Lab c T inte (q T) fun _ => True
  alone : ∀ i < c.N, ∀ t, Spans c i t → (∀ j, ¬ Twin c t i j) → q (opB c i) i t = par c (!opB c i) (low c t i)

/-- The invariant of the shaped sweep. -/
structure Run (c : Ctx) (inte : ℕ → Bool) (q : Bool → ℕ → ℚ → Bool) (S : Shp) (M : Mix) (p : Point) : Prop where
  s : SInv c .symmetricDifference inte S p
  m : ∀ T, MInv c .linearShapedDifference T inte (q T) (fun _ => True) M p
  rel : Rel S M

variable {c : Ctx} {inte : ℕ → Bool} {q : Bool → ℕ → ℚ → Bool} {S : Shp} {M : Mix} {p : Point} {group : List ℕ} {e : ℕ}

theorem Run.step (D : Duo c inte q) (h : Run c inte q S M p) (hpop : S.lin.popEvent = some e) :
    ∃ M', Run c inte q (S.process .symmetricDifference e).1 M' (S.lin.start e) ∧
      (S.process .symmetricDifference e).1.lin = S.lin.process e := by
  obtain ⟨-, s2, s3⟩ := h.s.step D.g hpop
  have hpop' : M.lin.popEvent = some e := by rw [← h.rel.lin]; exact hpop
  refine ⟨(M.process .linearShapedDifference e).1, ⟨s2, fun T => ?_, (h.rel.process _ _ e).1⟩, s3⟩
  obtain ⟨-, m2, -⟩ := (h.m T).step D.g (D.lab T) (fun _ _ _ _ _ _ _ _ => trivial) hpop'
  rw [h.rel.lin]
  exact m2

/-- The points of the sweep processed so far. -/
def after (p : Point) (v : Point) : Bool := decide (p < v)

theorem after_mono (p : Point) : Mono (after p) := by
  intro u v h1 h2
  unfold after at *
  rw [decide_eq_true_iff] at *
  exact lt_of_lt_of_le h2 h1

theorem Run.final (D : Duo c inte q) (h : Run c inte q S M p) (d : Done c S.lin p group) (T : Bool) :
    ∃ acc, MFinal c .linearShapedDifference T (q T) (fun _ => True) (after p) (fun _ => true) M acc := by
  have hl := h.rel.lin
  have w := d.inv.wf
  refine ⟨(List.range (cnt M.lin)).filter fun x => !after p (M.lin.start x),
    (h.m T).final D.g (List.nodup_range.filter _) (fun x hx => ?_) (fun x => ?_) fun u hu hs x hx on => ?_⟩
  · rw [← hl] at hx ⊢
    unfold after
    rw [decide_eq_true_iff, D.g.lt_iff d.inv.pP (w.memP x (d.inv.qlt x hx))]
    exact d.hq x hx
  · rw [List.mem_filter, List.mem_range]; simp
  · rw [← hl] at hx on ⊢
    have hle : c.X u ≤ c.X p := by
      rw [← D.g.le_iff hu d.inv.pP, ← not_lt]
      unfold after at hs
      exact of_decide_eq_false hs
    rcases eq_or_lt_of_le hle with k | k
    · have : u = p := (D.g.eq_iff hu d.inv.pP).mpr k
      subst this
      exact d.noPass D.g x hx on
    · exact d.inv.noInt u hu k x hx on

/-- The classification of the pieces is the one of the segments. -/
theorem Run.kls (D : Duo c inte q) (h : Run c inte q S M p) (d : Done c S.lin p group) {x : ℕ} (hx : IsL S.lin x)
    {t : ℚ} (h1 : lx c S.lin x ≤ t) (h2 : t < rx c S.lin x) (ht : t ≤ c.X p) :
    Kls c inte t (S.lin.sid x) (S.classify x) := by
  have g := D.g
  have w := d.inv.wf
  have hl := h.rel.lin
  have begun : ∀ {y}, IsL S.lin y → lx c S.lin y ≤ t → after p (S.lin.start y) = false := by
    intro y hy k
    unfold after
    refine decide_eq_false (not_lt.mpr ?_)
    rw [g.le_iff (w.memP y hy.1) d.inv.pP]
    exact k.trans ht
  have popped : ∀ {y}, IsL S.lin y → lx c S.lin y ≤ t → Popped S.lin y := by
    intro y hy k
    refine ⟨hy, fun z => ?_⟩
    have := d.hq y z
    linarith
  have si : Spans c (S.lin.sid x) t := w.spans hx h1 h2
  have hi := w.sidLt x hx
  have hcl : S.classify x = match S.kind x with
      | .none => if flag S.other x then .inside else .outside
      | .differentOrientation => .commonPolylineSegment
      | .sameOrientation => .commonRegionEdge := by
    unfold Shp.classify
    rw [toLeft_left (isLeft_iff.mpr hx.2)]
    rfl
  obtain ⟨acc, F⟩ := h.final D d (opB c (S.lin.sid x))
  have noInt := F.noInt
  rw [← hl] at noInt
  by_cases tw : ∃ j, Twin c t (S.lin.sid x) j
  · obtain ⟨j, tw⟩ := tw
    obtain ⟨y, hy, rfl, y1, y2⟩ := w.piece tw.1 tw.2.1
    have hr : Ret c S.lin x y := by
      refine ⟨tw.2.2.1, ?_⟩
      rcases lt_trichotomy (lx c S.lin x) (lx c S.lin y) with k | k | k
      · exact absurd ⟨k, lt_of_le_of_lt y1 h2⟩ (noInt _ (w.memP y hy.1) (begun hy y1) x hx ((w.onL y hy).coll tw.2.2.1.symm))
      · exact k
      · exact absurd ⟨k, lt_of_le_of_lt h1 y2⟩ (noInt _ (w.memP x hx.1) (begun hx h1) y hy ((w.onL x hx).coll tw.2.2.1))
    have hne : x ≠ y := by rintro rfl; exact tw.2.2.2 rfl
    have k := h.s.kind x y (popped hx h1) (popped hy y1) hne hr
    rw [hcl, k]
    unfold kindOf
    by_cases w : inte (S.lin.sid x) = inte (S.lin.sid y)
    · rw [if_pos w]; exact ⟨_, tw, w⟩
    · rw [if_neg w]; exact ⟨_, tw, w⟩
  · have tw' : ∀ j, ¬ Twin c t (S.lin.sid x) j := fun j k => tw ⟨j, k⟩
    have hk : S.kind x = .none := by
      have k := F.ov x (by rw [← hl]; exact hx) (by rw [← hl]; exact begun hx h1)
      rw [← hl] at k
      have e : flag M.overlap x = decide (S.kind x ≠ .none) := by
        rw [← h.rel.kinds]
        unfold flag Shp.kind
        rw [List.getD_eq_getElem?_getD, List.getD_eq_getElem?_getD, List.getElem?_map]
        cases S.kinds[x / 2]? <;> rfl
      rw [e, decide_eq_true_iff] at k
      by_contra hne
      obtain ⟨y, hy, hn, hr⟩ := k.mp hne
      have cb := F.collB x y (by rw [← hl]; exact hx) (by rw [← hl]; exact hy) (by rw [← hl]; exact begun hx h1)
        (by rw [← hl]; exact hr)
      rw [← hl] at cb
      have a := w.inA y hy
      have e := hr.2
      have hsy : Spans c (S.lin.sid y) t := ⟨by linarith, lt_of_lt_of_le h2 cb⟩
      by_cases es : S.lin.sid y = S.lin.sid x
      · rcases w.noOv x y hx hy (Ne.symm hn) (by unfold SameOp; rw [es]) hr.1 with k | k
        · have := w.lr x hx; linarith
        · have := w.lr y hy; linarith
      · exact tw' _ ⟨w.sidLt y hy, hsy, hr.1, es⟩
    have ho : flag S.other x = par c (!opB c (S.lin.sid x)) (low c t (S.lin.sid x)) := by
      rw [← D.alone _ hi t si tw', h.rel.other]
      have e := F.oth x (by rw [← hl]; exact hx) (by rw [← hl]; exact begun hx h1) (by rw [← hl]) trivial
      rw [e, ← hl]
      rcases eq_or_lt_of_le h1 with k | k
      · rw [k]
      · refine (D.lab _).along _ hi rfl _ _ trivial trivial (w.inA x hx) k si.2 fun j hj _ => ?_
        have := F.cls g (after_mono p) (x := x) (by rw [← hl]; exact hx) (τ := t) (by rw [← hl]; exact k)
          (by rw [← hl]; exact h2) ⟨p, d.inv.pP, by unfold after; exact decide_eq_false (lt_irrefl _), ht⟩ hj
        rw [← hl] at this
        exact this
    rw [hcl, hk]
    simp only
    rw [ho]
    by_cases w : par c (!opB c (S.lin.sid x)) (low c t (S.lin.sid x)) = true
    · rw [if_pos w]; exact ⟨tw', w⟩
    · rw [if_neg w]; exact ⟨tw', bool_false w⟩

end Rene.Sweep
