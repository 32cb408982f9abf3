import Verif.Lemmas.Sweep.ShpEven
import Verif.Lemmas.Sweep.RelLoop
import Verif.Model.RelateShaped

/-! # The kinds of the edges of two shapes, and what they say about the shapes -/

namespace Rene.Sweep
open Rene.Face Finset Spec

variable {c : Ctx} {inte : ℕ → Bool} {t : ℚ} {i j : ℕ} {b : Bool}

/-- Another segment on the same line at `t`. -/
def Twin (c : Ctx) (t : ℚ) (i j : ℕ) : Prop := j < c.N ∧ Spans c j t ∧ c.Coll i j ∧ j ≠ i

/-- The kind of a segment at `t`. -/
def Kls (c : Ctx) (inte : ℕ → Bool) (t : ℚ) (i : ℕ) : EventKind → Prop
  | .inside => (∀ j, ¬ Twin c t i j) ∧ par c (!opB c i) (low c t i) = true
  | .outside => (∀ j, ¬ Twin c t i j) ∧ par c (!opB c i) (low c t i) = false
  | .commonRegionEdge => ∃ j, Twin c t i j ∧ inte i = inte j
  | .commonPolylineSegment => ∃ j, Twin c t i j ∧ inte i ≠ inte j

/-- Interiors are above the segments which go to the right. -/
def Dir (c : Ctx) (inte : ℕ → Bool) : Prop :=
  ∀ i < c.N, ∀ t, Spans c i t → inte i = !par c (opB c i) (low c t i)

/-- The parity of the segments of an operand below a point. -/
noncomputable def dpar (c : Ctx) (b : Bool) (z : Point) : Bool := par c b (lowE c (c.X z) (c.X z) z.y)

theorem op_unique (g : c.Good) (hi : i < c.N) (hj : j < c.N) (si : Spans c i t) (sj : Spans c j t) (cl : c.Coll i j)
    (so : opB c i = opB c j) : i = j := by
  by_contra q
  have := g.noOv i hi j hj q (decide_eq_decide.mp so) cl
  rcases this with k | k
  · have := si.2; have := sj.1; linarith
  · have := sj.2; have := si.1; linarith

theorem Twin.op (g : c.Good) (hi : i < c.N) (si : Spans c i t) (h : Twin c t i j) : opB c j = !opB c i := by
  by_contra q
  have : opB c i = opB c j := by revert q; cases opB c i <;> cases opB c j <;> simp
  exact h.2.2.2 (op_unique g hi h.1 si h.2.1 h.2.2.1 this).symm

theorem Twin.unique (g : c.Good) (hi : i < c.N) (si : Spans c i t) {k : ℕ} (h : Twin c t i j) (h' : Twin c t i k) : j = k :=
  op_unique g h.1 h'.1 h.2.1 h'.2.1 (h.2.2.1.symm.trans h'.2.2.1) ((h.op g hi si).trans (h'.op g hi si).symm)

theorem Twin.symm (hi : i < c.N) (si : Spans c i t) (h : Twin c t i j) : Twin c t j i :=
  ⟨hi, si, h.2.2.1.symm, h.2.2.2.symm⟩

theorem Kls.unique (g : c.Good) (hi : i < c.N) (si : Spans c i t) {k k' : EventKind} (h : Kls c inte t i k)
    (h' : Kls c inte t i k') : k = k' := by
  cases k <;> cases k' <;> unfold Kls at h h' <;> simp only at h h' <;> try rfl
  · obtain ⟨j, h1, h2⟩ := h
    obtain ⟨j', h3, h4⟩ := h'
    rw [h1.unique g hi si h3] at h2
    exact absurd h4 h2
  · obtain ⟨j, h1, h2⟩ := h; exact absurd h1 (h'.1 j)
  · obtain ⟨j, h1, h2⟩ := h; exact absurd h1 (h'.1 j)
  · obtain ⟨j, h1, h2⟩ := h
    obtain ⟨j', h3, h4⟩ := h'
    rw [h1.unique g hi si h3] at h2
    exact absurd h2 h4
  · obtain ⟨j, h1, h2⟩ := h; exact absurd h1 (h'.1 j)
  · obtain ⟨j, h1, h2⟩ := h; exact absurd h1 (h'.1 j)
  · obtain ⟨j, h1, h2⟩ := h'; exact absurd h1 (h.1 j)
  · obtain ⟨j, h1, h2⟩ := h'; exact absurd h1 (h.1 j)
  · rw [h.2] at h'; exact absurd h'.2 (by decide)
  · obtain ⟨j, h1, h2⟩ := h'; exact absurd h1 (h.1 j)
  · obtain ⟨j, h1, h2⟩ := h'; exact absurd h1 (h.1 j)
  · rw [h.2] at h'; exact absurd h'.2 (by decide)

/-- The top of a set closed downwards. -/
theorem lower_peel (g : c.Good) {D : Finset ℕ} (hD : Lower c t D) (hne : D.Nonempty) :
    ∃ i < c.N, Spans c i t ∧
      (((∀ j, ¬ Twin c t i j) ∧ ∀ b, par c b D = ((opB c i == b) ^^ par c b (low c t i))) ∨
        ∃ j, Twin c t i j ∧ ∀ b, par c b D = !par c b (low c t i)) := by
  obtain ⟨i, hi, hm⟩ := exists_top (c := c) (t := t) hne
  have hiN := hD.lt i hi
  have hiS := hD.spans i hi
  have hnot : i ∉ low c t i := fun q => (mem_low.mp q).2.2.irrefl
  have sub : low c t i ⊆ D := by
    intro k hk
    obtain ⟨a, b, d⟩ := mem_low.mp hk
    exact hD.low i hi k a b fun q => (q.trans' d).irrefl
  have up : ∀ k ∈ D, k ∈ low c t i ∨ k = i ∨ Twin c t i k := by
    intro k hk
    by_cases q : AboveR c k i t
    · exact Or.inl (mem_low.mpr ⟨hD.lt k hk, hD.spans k hk, q⟩)
    · have cl := coll_of_key q (hm k hk)
      by_cases w : k = i
      · exact Or.inr (Or.inl w)
      · exact Or.inr (Or.inr ⟨hD.lt k hk, hD.spans k hk, cl.symm, w⟩)
  refine ⟨i, hiN, hiS, ?_⟩
  by_cases tw : ∃ j, Twin c t i j
  · obtain ⟨j, tw⟩ := tw
    right
    refine ⟨j, tw, fun b => ?_⟩
    have ho := tw.op g hiN hiS
    have jnot : j ∉ low c t i := fun q => ((AboveR.coll_left tw.2.2.1).mpr (mem_low.mp q).2.2).irrefl
    have hDe : D = insert i (insert j (low c t i)) := by
      ext k
      rw [mem_insert, mem_insert]
      constructor
      · intro hk
        rcases up k hk with q | q | q
        · exact Or.inr (Or.inr q)
        · exact Or.inl q
        · exact Or.inr (Or.inl (q.unique g hiN hiS tw))
      · rintro (rfl | rfl | q)
        · exact hi
        · exact hD.low i hi k tw.1 tw.2.1 fun q => ((AboveR.coll_left tw.2.2.1).mp q).irrefl
        · exact sub q
    have inot : i ∉ insert j (low c t i) := by
      rw [mem_insert]
      rintro (q | q)
      · exact tw.2.2.2 q.symm
      · exact hnot q
    rw [hDe, par_insert inot, par_insert jnot, ho]
    generalize par c b (low c t i) = x
    cases opB c i <;> cases b <;> cases x <;> rfl
  · left
    have tw' : ∀ j, ¬ Twin c t i j := fun j q => tw ⟨j, q⟩
    refine ⟨tw', fun b => ?_⟩
    have hDe : D = insert i (low c t i) := by
      ext k
      rw [mem_insert]
      constructor
      · intro hk
        rcases up k hk with q | q | q
        · exact Or.inr q
        · exact Or.inl q
        · exact absurd q (tw' k)
      · rintro (rfl | q)
        · exact hi
        · exact sub q
    rw [hDe, par_insert hnot]

theorem par_nonempty {D : Finset ℕ} (h : par c b D = true) : D.Nonempty := by
  obtain ⟨i, hi, -⟩ := par_mem h
  exact ⟨i, hi⟩

/-- The kind of the topmost segment below a point. -/
theorem top_kind (g : c.Good) (hd : Dir c inte) {z : Point} (h : dpar c b z = true) :
    ∃ i < c.N, Spans c i (c.X z) ∧
      (Kls c inte (c.X z) i (if dpar c (!opB c i) z then .inside else .outside) ∨
        ∃ j, Twin c (c.X z) i j ∧ inte i = dpar c (opB c i) z ∧ inte j = dpar c (!opB c i) z) := by
  have hL : Lower c (c.X z) (lowE c (c.X z) (c.X z) z.y) := lower_lowE fun i _ j _ _ _ hn => order_self hn
  obtain ⟨i, hi, si, k⟩ := lower_peel g hL (par_nonempty h)
  refine ⟨i, hi, si, ?_⟩
  rcases k with ⟨tw, k⟩ | ⟨j, tw, k⟩
  · left
    have e : dpar c (!opB c i) z = par c (!opB c i) (low c (c.X z) i) := by
      unfold dpar
      rw [k]
      generalize par c (!opB c i) (low c (c.X z) i) = x
      cases opB c i <;> cases x <;> rfl
    rw [e]
    by_cases q : par c (!opB c i) (low c (c.X z) i) = true
    · rw [if_pos q]; exact ⟨tw, q⟩
    · rw [if_neg q]; exact ⟨tw, by simpa using q⟩
  · right
    refine ⟨j, tw, ?_, ?_⟩
    · rw [hd i hi _ si]; exact (k _).symm
    · rw [hd j tw.1 _ tw.2.1, tw.op g hi si, low_coll tw.2.2.1.symm]; exact (k _).symm

/-- A common inner point. -/
theorem top_in (g : c.Good) (hd : Dir c inte) {z : Point} (h : ∀ b, dpar c b z = true) :
    ∃ i < c.N, ∃ t, Spans c i t ∧ ∃ k, Kls c inte t i k ∧ (k = .inside ∨ k = .commonRegionEdge) := by
  obtain ⟨i, hi, si, k | ⟨j, tw, k1, k2⟩⟩ := top_kind g hd (h true)
  · rw [h, if_pos rfl] at k
    exact ⟨i, hi, _, si, _, k, Or.inl rfl⟩
  · exact ⟨i, hi, _, si, .commonRegionEdge, ⟨j, tw, by rw [k1, k2, h, h]⟩, Or.inr rfl⟩

/-- The segments which say that the operand is not a part of the other one. -/
def EvOut (b : Bool) (o : Bool) (k : EventKind) : Prop :=
  (o = b ∧ (k = .outside ∨ k = .commonPolylineSegment)) ∨ (o = !b ∧ k = .inside)

theorem top_out (g : c.Good) (hd : Dir c inte) {z : Point} (h1 : dpar c b z = true) (h2 : dpar c (!b) z = false) :
    ∃ i < c.N, ∃ t, Spans c i t ∧ ∃ k, Kls c inte t i k ∧ EvOut b (opB c i) k := by
  obtain ⟨i, hi, si, k | ⟨j, tw, k1, k2⟩⟩ := top_kind g hd h1
  · by_cases q : opB c i = b
    · rw [q, h2, if_neg (by decide)] at k
      exact ⟨i, hi, _, si, _, k, Or.inl ⟨q, Or.inl rfl⟩⟩
    · have q' : opB c i = !b := by revert q; cases opB c i <;> cases b <;> simp
      rw [q', Bool.not_not, h1, if_pos rfl] at k
      exact ⟨i, hi, _, si, _, k, Or.inr ⟨q', rfl⟩⟩
  · have ho := tw.op g hi si
    by_cases q : opB c i = b
    · refine ⟨i, hi, _, si, .commonPolylineSegment, ⟨j, tw, ?_⟩, Or.inl ⟨q, Or.inr rfl⟩⟩
      rw [k1, k2, q, h1, h2]; decide
    · have q' : opB c i = !b := by revert q; cases opB c i <;> cases b <;> simp
      refine ⟨j, tw.1, _, tw.2.1, .commonPolylineSegment, ⟨i, tw.symm hi si, ?_⟩, Or.inl ⟨by rw [ho, q', Bool.not_not], Or.inr rfl⟩⟩
      rw [k1, k2, q', Bool.not_not, h1, h2]; decide

/-! ### Points near a segment -/

theorem par_congr {D E : Finset ℕ} (h : ∀ x, opB c x = b → (x ∈ D ↔ x ∈ E)) : par c b D = par c b E := by
  classical
  have s1 : ∀ D : Finset ℕ, ∑ x ∈ D, z (opB c x == b) = ∑ x ∈ D.filter (fun x => opB c x = b), z (opB c x == b) := by
    intro D
    rw [sum_filter]
    refine sum_congr rfl fun x _ => ?_
    split
    · rfl
    · rename_i q
      rw [beq_false_of_ne q]; rfl
  unfold par
  rw [s1 D, s1 E]
  congr 2
  ext x
  rw [mem_filter, mem_filter]
  constructor
  · rintro ⟨k1, k2⟩; exact ⟨(h x k2).mp k1, k2⟩
  · rintro ⟨k1, k2⟩; exact ⟨(h x k2).mpr k1, k2⟩

theorem exists_next (c : Ctx) {s u : ℚ} (h : s < u) : ∃ t', s < t' ∧ t' < u ∧ ∀ p ∈ c.P, c.X p ≤ t' → c.X p ≤ s := by
  by_cases hn : (c.P.filter fun p => s < c.X p).Nonempty
  · obtain ⟨v, hv, hm⟩ := exists_min_image _ c.X hn
    have hv := (mem_filter.mp hv).2
    refine ⟨(s + min u (c.X v)) / 2, ?_, ?_, fun p hp k => ?_⟩
    · have := lt_min h hv; linarith
    · have := min_le_left u (c.X v); linarith
    · by_contra q
      have := hm p (mem_filter.mpr ⟨hp, not_le.mp q⟩)
      have := min_le_right u (c.X v)
      linarith
  · refine ⟨(s + u) / 2, by linarith, by linarith, fun p hp _ => ?_⟩
    by_contra q
    exact hn ⟨p, mem_filter.mpr ⟨hp, not_le.mp q⟩⟩

theorem exists_eta (N : ℕ) (F : ℕ → ℚ) (y : ℚ) : ∃ η, 0 < η ∧ ∀ j < N, F j ≠ y → η < |F j - y| := by
  by_cases hn : ((range N).filter fun j => F j ≠ y).Nonempty
  · obtain ⟨v, hv, hm⟩ := exists_min_image _ (fun j => |F j - y|) hn
    have hv := (mem_filter.mp hv).2
    have h0 : 0 < |F v - y| := abs_pos.mpr (sub_ne_zero.mpr hv)
    refine ⟨|F v - y| / 2, by linarith, fun j hj k => ?_⟩
    have := hm j (mem_filter.mpr ⟨mem_range.mpr hj, k⟩)
    linarith
  · refine ⟨1, one_pos, fun j hj k => ?_⟩
    exact absurd ⟨j, mem_filter.mpr ⟨mem_range.mpr hj, k⟩⟩ hn

/-- A point with given coordinate `X`. -/
def ptX (c : Ctx) (t y : ℚ) : Point := ⟨t - c.ε * y, y⟩

theorem ptX_X {t y : ℚ} : c.X (ptX c t y) = t := by unfold Ctx.X ptX; simp only; ring

theorem spans_next (g : c.Good) {t' : ℚ} (h1 : t < t') (h : ∀ p ∈ c.P, c.X p ≤ t' → c.X p ≤ t) (hj : j < c.N) :
    Spans c j t' ↔ Spans c j t := by
  constructor
  · rintro ⟨a, b⟩
    exact ⟨h _ (g.memA j hj) a, h1.trans b⟩
  · rintro ⟨a, b⟩
    refine ⟨a.trans h1.le, ?_⟩
    by_contra q
    have := h _ (g.memB j hj) (not_lt.mp q)
    linarith

theorem above_next (g : c.Good) {t' : ℚ} (h1 : t < t') (h : ∀ p ∈ c.P, c.X p ≤ t' → c.X p ≤ t) (hi : i < c.N)
    (hj : j < c.N) (si : Spans c i t) (sj : Spans c j t) (ha : AboveR c j i t) : c.f j t' < c.f i t' := by
  have e : ∀ k, c.f k t' = c.f k t + c.K k * (t' - t) := fun k => by unfold Ctx.f; ring
  rcases ha with k | ⟨k1, k2⟩
  · have ncl : ¬ c.Coll j i := fun z => by have := z.f_eq t; linarith
    have sj' := (spans_next g h1 h hj).mpr sj
    have si' := (spans_next g h1 h hi).mpr si
    refine (line_sign (c := c) (i := j) (j := i) (fun s a b q => ?_) h1.le).mp k
    have a' : t < s := lt_of_le_of_ne a fun z => by rw [← z] at q; linarith
    have hX : c.X (at' c j s) = s := at'_X
    have := g.cross j hj i hi ncl (at' c j s) at'_on (at'_on' q) (by rw [hX]; exact sj.1.trans a)
      (by rw [hX]; exact b.trans sj'.2.le) (by rw [hX]; exact si.1.trans a) (by rw [hX]; exact b.trans si'.2.le)
    have := h _ this (by rw [hX]; exact b)
    rw [hX] at this
    linarith
  · rw [e, e]
    have : c.K j * (t' - t) < c.K i * (t' - t) := mul_lt_mul_of_pos_right k2 (by linarith)
    linarith

/-- Points on, above and below a segment, near it. -/
theorem near (g : c.Good) (hi : i < c.N) (si : Spans c i t) : ∃ z0 zp zm : Point,
    InOp c (opB c i) z0 ∧ (∀ b, ¬ InOp c b zp) ∧ (∀ b, ¬ InOp c b zm) ∧
    (∀ b, dpar c b z0 = par c b (low c t i)) ∧ (∀ b, dpar c b zm = par c b (low c t i)) ∧
    ((∀ j, ¬ Twin c t i j) → ¬ InOp c (!opB c i) z0 ∧ ∀ b, dpar c b zp = ((opB c i == b) ^^ par c b (low c t i))) ∧
    ((∃ j, Twin c t i j) → ∀ b, dpar c b zp = !par c b (low c t i)) := by
  obtain ⟨t', h1, h2, h3⟩ := exists_next c si.2
  obtain ⟨η, h0, hη⟩ := exists_eta c.N (fun j => c.f j t') (c.f i t')
  have sp : ∀ {j}, j < c.N → (Spans c j t' ↔ Spans c j t) := fun hj => spans_next g h1 h3 hj
  have si' := (sp hi).mpr si
  have tri : ∀ {j}, j < c.N → Spans c j t → (c.f j t' < c.f i t' ↔ AboveR c j i t) ∧ (c.f j t' = c.f i t' ↔ c.Coll i j) := by
    intro j hj sj
    by_cases k1 : AboveR c j i t
    · have := above_next g h1 h3 hi hj si sj k1
      refine ⟨iff_of_true this k1, iff_of_false this.ne fun z => this.ne (z.f_eq t').symm⟩
    · by_cases k2 : AboveR c i j t
      · have := above_next g h1 h3 hj hi sj si k2
        refine ⟨iff_of_false this.not_gt k1, iff_of_false this.ne' fun z => this.ne (z.f_eq t')⟩
      · have cl := coll_of_key k2 k1
        have := (cl.f_eq t').symm
        exact ⟨iff_of_false (by rw [this]; exact lt_irrefl _) k1, iff_of_true this cl⟩
  have spanOf : ∀ {j z}, j < c.N → c.X z = t' → c.X (c.A j) ≤ c.X z → c.X z ≤ c.X (c.B j) → Spans c j t' := by
    intro j z hj e a b
    rw [e] at a b
    refine ⟨a, lt_of_le_of_ne b fun q => ?_⟩
    have := h3 _ (g.memB j hj) q.symm.le
    linarith
  have e0 : lowE c t' t' (c.f i t') = low c t i := by
    ext j
    rw [mem_lowE, mem_low]
    refine and_congr_right fun hj => ?_
    rw [sp hj]
    exact and_congr_right fun sj => (tri hj sj).1
  have em : lowE c t' t' (c.f i t' - η) = low c t i := by
    rw [← e0]
    ext j
    rw [mem_lowE, mem_lowE]
    refine and_congr_right fun hj => and_congr_right fun _ => ⟨fun k => by linarith, fun k => ?_⟩
    have := hη j hj k.ne
    rw [abs_of_neg (by linarith)] at this
    linarith
  have mp : ∀ j, j ∈ lowE c t' t' (c.f i t' + η) ↔ j < c.N ∧ Spans c j t ∧ (AboveR c j i t ∨ c.Coll i j) := by
    intro j
    rw [mem_lowE]
    refine and_congr_right fun hj => ?_
    rw [sp hj]
    refine and_congr_right fun sj => ?_
    rw [← (tri hj sj).1, ← (tri hj sj).2, ← le_iff_lt_or_eq]
    refine ⟨fun k => ?_, fun k => by linarith⟩
    by_contra q
    have := hη j hj (not_le.mp q).ne'
    rw [abs_of_pos (by linarith [not_le.mp q])] at this
    linarith
  have off : ∀ y, y = c.f i t' + η ∨ y = c.f i t' - η → ∀ b, ¬ InOp c b (ptX c t' y) := by
    rintro y hy b ⟨j, hj, _, on, _, _⟩
    unfold Ctx.On at on
    rw [ptX_X] at on
    have on : y = c.f j t' := on
    have hne : c.f j t' ≠ c.f i t' := by rw [← on]; rcases hy with rfl | rfl <;> linarith
    have := hη j hj hne
    rcases hy with hy | hy
    · rw [← on, hy, add_sub_cancel_left, abs_of_pos h0] at this; exact lt_irrefl _ this
    · rw [← on, hy, sub_sub_cancel_left, abs_neg, abs_of_pos h0] at this; exact lt_irrefl _ this
  have hnot : i ∉ low c t i := fun q => (mem_low.mp q).2.2.irrefl
  refine ⟨ptX c t' (c.f i t'), ptX c t' (c.f i t' + η), ptX c t' (c.f i t' - η),
    ⟨i, hi, rfl, ?_, ?_, ?_⟩, off _ (Or.inl rfl), off _ (Or.inr rfl), fun b => ?_, fun b => ?_, fun tw => ⟨?_, fun b => ?_⟩,
    fun tw b => ?_⟩
  · unfold Ctx.On; rw [ptX_X]; rfl
  · rw [ptX_X]; exact si'.1
  · rw [ptX_X]; exact si'.2.le
  · unfold dpar; rw [ptX_X]; exact congrArg _ e0
  · unfold dpar; rw [ptX_X]; exact congrArg _ em
  · rintro ⟨j, hj, sj, on, a, b⟩
    have sj' := spanOf hj ptX_X a b
    unfold Ctx.On at on
    rw [ptX_X] at on
    have on : c.f i t' = c.f j t' := on
    have sjt := (sp hj).mp sj'
    refine tw j ⟨hj, sjt, (tri hj sjt).2.mp on.symm, ?_⟩
    rintro rfl
    have : opB c j = !opB c j := sj
    revert this; cases opB c j <;> simp
  · have : lowE c t' t' (c.f i t' + η) = insert i (low c t i) := by
      ext j
      rw [mp, mem_insert, mem_low]
      constructor
      · rintro ⟨hj, sj, k | k⟩
        · exact Or.inr ⟨hj, sj, k⟩
        · left
          by_contra q
          exact tw j ⟨hj, sj, k, q⟩
      · rintro (rfl | ⟨hj, sj, k⟩)
        · exact ⟨hi, si, Or.inr (.refl _)⟩
        · exact ⟨hj, sj, Or.inl k⟩
    unfold dpar
    rw [ptX_X]
    show par c b (lowE c t' t' (c.f i t' + η)) = _
    rw [this, par_insert hnot]
  · obtain ⟨k, tw⟩ := tw
    have knot : k ∉ low c t i := fun q => ((AboveR.coll_left tw.2.2.1).mpr (mem_low.mp q).2.2).irrefl
    have inot : i ∉ insert k (low c t i) := by
      rw [mem_insert]
      rintro (q | q)
      · exact tw.2.2.2 q.symm
      · exact hnot q
    have : lowE c t' t' (c.f i t' + η) = insert i (insert k (low c t i)) := by
      ext j
      rw [mp, mem_insert, mem_insert, mem_low]
      constructor
      · rintro ⟨hj, sj, q | q⟩
        · exact Or.inr (Or.inr ⟨hj, sj, q⟩)
        · by_cases w : j = i
          · exact Or.inl w
          · exact Or.inr (Or.inl (Twin.unique g hi si ⟨hj, sj, q, w⟩ tw))
      · rintro (rfl | rfl | ⟨hj, sj, k⟩)
        · exact ⟨hi, si, Or.inr (.refl _)⟩
        · exact ⟨tw.1, tw.2.1, Or.inr tw.2.2.1⟩
        · exact ⟨hj, sj, Or.inl k⟩
    have ho := tw.op g hi si
    unfold dpar
    rw [ptX_X]
    show par c b (lowE c t' t' (c.f i t' + η)) = _
    rw [this, par_insert inot, par_insert knot, ho]
    generalize par c b (low c t i) = x
    cases opB c i <;> cases b <;> cases x <;> rfl

/-- A point of an operand which is not on the other one. -/
theorem kind_at (g : c.Good) (hi : i < c.N) (hb : opB c i = b) {z : Point} (on : c.On i z) (hz : ¬ InOp c (!b) z)
    (si : Spans c i t) (ht : t = c.X z ∨ Gap c t z) :
    Kls c inte t i (if dpar c (!b) z then .inside else .outside) := by
  have htz : t ≤ c.X z := by
    rcases ht with k | k
    · exact k.le
    · exact k.lt.le
  -- the other operand's segments do not pass through the point
  have hne : ∀ j < c.N, opB c j = !b → Spans c j t → c.f j (c.X z) ≠ z.y := by
    intro j hj oj sj q
    refine hz ⟨j, hj, oj, q.symm, sj.1.trans htz, ?_⟩
    rcases ht with k | k
    · rw [← k]; exact sj.2.le
    · exact k.ge (g.memB j hj) sj.2
  have on' : z.y = c.f i (c.X z) := on
  have ord : ∀ j < c.N, opB c j = !b → Spans c j t → (AboveR c j i t ↔ c.f j (c.X z) < z.y) := by
    intro j hj oj sj
    have hne' := hne j hj oj sj
    rcases ht with k | k
    · subst k
      rw [on'] at hne' ⊢
      exact ⟨fun q => lt_of_le_of_ne (q.elim le_of_lt fun q => q.1.le) hne', Or.inl⟩
    · constructor
      · intro q
        refine lt_of_le_of_ne ?_ hne'
        rw [on']
        exact k.order g hi hj si sj fun q' => (q.trans' q').irrefl
      · intro q
        by_contra q'
        have := k.order g hj hi sj si q'
        rw [← on'] at this
        linarith
  have tw : ∀ j, ¬ Twin c t i j := by
    intro j tw
    have oj := tw.op g hi si
    rw [hb] at oj
    refine hne j tw.1 oj tw.2.1 ?_
    rw [on', tw.2.2.1.f_eq]
  have e : par c (!opB c i) (low c t i) = dpar c (!b) z := by
    have e1 : dpar c (!b) z = par c (!b) (lowE c t (c.X z) z.y) := by
      unfold dpar
      rcases ht with k | k
      · rw [k]
      · rw [k.lowE_eq g]
    rw [e1, hb]
    refine par_congr fun j oj => ?_
    rw [mem_low, mem_lowE]
    exact and_congr_right fun hj => and_congr_right fun sj => ord j hj oj sj
  rw [← e]
  by_cases q : par c (!opB c i) (low c t i) = true
  · rw [if_pos q]; exact ⟨tw, q⟩
  · rw [if_neg q]; exact ⟨tw, by simpa using q⟩

/-- A point of an operand on the other side of nothing: some segment of the operand tells where it is. -/
theorem kind_of_point (g : c.Good) {z : Point} (h : InOp c b z) (hz : ¬ InOp c (!b) z) :
    ∃ i < c.N, opB c i = b ∧ ∃ t, Spans c i t ∧ Kls c inte t i (if dpar c (!b) z then .inside else .outside) := by
  obtain ⟨i, hi, hb, on, h1, h2⟩ := h
  refine ⟨i, hi, hb, ?_⟩
  rcases eq_or_lt_of_le h2 with k | k
  · have e : z = c.B i := Ctx.On.eq_of_X on (g.onB i hi) k
    obtain ⟨t, ht⟩ := exists_gap c (w := z) (by rw [e]; exact g.memB i hi)
    have si : Spans c i t := by
      refine ⟨ht.no _ (g.memA i hi) ?_, lt_of_lt_of_le ht.lt k.le⟩
      rw [k]; exact g.lt i hi
    exact ⟨t, si, kind_at g hi hb on hz si (Or.inr ht)⟩
  · exact ⟨c.X z, ⟨h1, k⟩, kind_at g hi hb on hz ⟨h1, k⟩ (Or.inl rfl)⟩

/-- Inside of an operand. -/
def Inn (c : Ctx) (b : Bool) (z : Point) : Prop := ¬ InOp c b z ∧ dpar c b z = true

/-- A point of an operand. -/
def Cl (c : Ctx) (b : Bool) (z : Point) : Prop := InOp c b z ∨ Inn c b z

theorem inn_iff (g : c.Good) (hd : Dir c inte) : (∃ z, ∀ b, Inn c b z) ↔
    ∃ i < c.N, ∃ t, Spans c i t ∧ ∃ k, Kls c inte t i k ∧ (k = .inside ∨ k = .commonRegionEdge) := by
  constructor
  · rintro ⟨z, h⟩
    exact top_in g hd fun b => (h b).2
  · rintro ⟨i, hi, t, si, k, hk, rfl | rfl⟩
    · obtain ⟨tw, hp⟩ := hk
      obtain ⟨z0, zp, zm, -, op, om, -, dm, al, -⟩ := near g hi si
      obtain ⟨-, dp⟩ := al tw
      by_cases q : par c (opB c i) (low c t i) = true
      · refine ⟨zm, fun b => ⟨om b, ?_⟩⟩
        rw [dm]
        by_cases w : b = opB c i
        · rw [w]; exact q
        · rw [Bool.eq_not_of_ne w]; exact hp
      · refine ⟨zp, fun b => ⟨op b, ?_⟩⟩
        rw [dp]
        by_cases w : b = opB c i
        · rw [w, bool_false q]; cases opB c i <;> rfl
        · rw [Bool.eq_not_of_ne w, hp]; cases opB c i <;> rfl
    · obtain ⟨j, tw, hp⟩ := hk
      obtain ⟨z0, zp, zm, -, op, om, -, dm, -, dp⟩ := near g hi si
      have dp := dp ⟨j, tw⟩
      have ho := tw.op g hi si
      rw [hd i hi t si, hd j tw.1 t tw.2.1, ho, low_coll tw.2.2.1.symm] at hp
      have hp' : ∀ b, par c b (low c t i) = par c (opB c i) (low c t i) := by
        intro b
        by_cases w : b = opB c i
        · rw [w]
        · rw [Bool.eq_not_of_ne w]; revert hp; cases par c (opB c i) (low c t i) <;> cases par c (!opB c i) (low c t i) <;> simp
      by_cases q : par c (opB c i) (low c t i) = true
      · exact ⟨zm, fun b => ⟨om b, by rw [dm, hp', q]⟩⟩
      · exact ⟨zp, fun b => ⟨op b, by rw [dp, hp', bool_false q]; rfl⟩⟩

theorem bd_inn_iff (g : c.Good) : (∃ z, InOp c b z ∧ Inn c (!b) z) ↔
    ∃ i < c.N, opB c i = b ∧ ∃ t, Spans c i t ∧ Kls c inte t i .inside := by
  constructor
  · rintro ⟨z, h1, h2, h3⟩
    obtain ⟨i, hi, hb, t, si, k⟩ := kind_of_point (inte := inte) g h1 h2
    rw [h3, if_pos rfl] at k
    exact ⟨i, hi, hb, t, si, k⟩
  · rintro ⟨i, hi, rfl, t, si, tw, hp⟩
    obtain ⟨z0, zp, zm, o0, op, om, d0, dm, al, -⟩ := near g hi si
    exact ⟨z0, o0, (al tw).1, by rw [d0]; exact hp⟩

theorem out_iff (g : c.Good) (hd : Dir c inte) : (∃ z, Cl c b z ∧ ¬ Cl c (!b) z) ↔
    ∃ i < c.N, ∃ t, Spans c i t ∧ ∃ k, Kls c inte t i k ∧ EvOut b (opB c i) k := by
  have off : ∀ {b z}, ¬ InOp c b z → dpar c b z = false → ¬ Cl c b z := by
    rintro b z k1 k2 (k | k)
    · exact k1 k
    · rw [k.2] at k2; cases k2
  constructor
  · rintro ⟨z, h1, h2⟩
    have h3 : ¬ InOp c (!b) z := fun k => h2 (Or.inl k)
    have h4 : dpar c (!b) z = false := bool_false fun k => h2 (Or.inr ⟨h3, k⟩)
    rcases h1 with h1 | h1
    · obtain ⟨i, hi, hb, t, si, k⟩ := kind_of_point (inte := inte) g h1 h3
      rw [h4, if_neg (by decide)] at k
      exact ⟨i, hi, t, si, _, k, Or.inl ⟨hb, Or.inl rfl⟩⟩
    · exact top_out g hd h1.2 h4
  · rintro ⟨i, hi, t, si, k, hk, ⟨rfl, rfl | rfl⟩ | ⟨hb, rfl⟩⟩
    · obtain ⟨tw, hp⟩ := hk
      obtain ⟨z0, zp, zm, o0, op, om, d0, dm, al, -⟩ := near g hi si
      exact ⟨z0, Or.inl o0, off (al tw).1 (by rw [d0]; exact hp)⟩
    · obtain ⟨j, tw, hp⟩ := hk
      obtain ⟨z0, zp, zm, -, op, om, -, dm, -, dp⟩ := near g hi si
      have dp := dp ⟨j, tw⟩
      have ho := tw.op g hi si
      rw [hd i hi t si, hd j tw.1 t tw.2.1, ho, low_coll tw.2.2.1.symm] at hp
      by_cases q : par c (opB c i) (low c t i) = true
      · refine ⟨zm, Or.inr ⟨om _, by rw [dm]; exact q⟩, off (om _) ?_⟩
        rw [dm]; rw [q] at hp; revert hp; cases par c (!opB c i) (low c t i) <;> simp
      · refine ⟨zp, Or.inr ⟨op _, by rw [dp, bool_false q]; rfl⟩, off (op _) ?_⟩
        rw [dp]; rw [bool_false q] at hp; revert hp; cases par c (!opB c i) (low c t i) <;> simp
    · obtain ⟨tw, hp⟩ := hk
      obtain ⟨z0, zp, zm, -, op, om, -, dm, al, -⟩ := near g hi si
      obtain ⟨-, dp⟩ := al tw
      have hb' : b = !opB c i := by rw [hb, Bool.not_not]
      subst hb'
      by_cases q : par c (opB c i) (low c t i) = true
      · refine ⟨zp, Or.inr ⟨op _, ?_⟩, ?_⟩
        · rw [dp, hp]; cases opB c i <;> rfl
        · rw [Bool.not_not]
          refine off (op _) ?_
          rw [dp, q]; cases opB c i <;> rfl
      · refine ⟨zm, Or.inr ⟨om _, by rw [dm]; exact hp⟩, ?_⟩
        rw [Bool.not_not]
        exact off (om _) (by rw [dm]; exact bool_false q)

end Rene.Sweep
