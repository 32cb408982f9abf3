import Verif.Lemmas.Sweep.ShpRule

/-! # An even number of selected pieces meets at a point -/

namespace Rene.Sweep
open Rene.Face Finset Spec

/-- No point of the sweep is strictly between `t` and the point `w`. -/
structure Gap (c : Ctx) (t : ℚ) (w : Point) : Prop where
  mem : w ∈ c.P
  lt : t < c.X w
  no : ∀ p ∈ c.P, c.X p < c.X w → c.X p ≤ t

theorem exists_gap (c : Ctx) {w : Point} (hw : w ∈ c.P) : ∃ t, Gap c t w := by
  by_cases h : (c.P.filter fun p => c.X p < c.X w).Nonempty
  · obtain ⟨v, hv, hm⟩ := exists_max_image _ c.X h
    exact ⟨c.X v, hw, (mem_filter.mp hv).2, fun p hp k => hm p (mem_filter.mpr ⟨hp, k⟩)⟩
  · refine ⟨c.X w - 1, hw, by linarith, fun p hp k => ?_⟩
    exact absurd ⟨p, mem_filter.mpr ⟨hp, k⟩⟩ h

theorem Gap.ge {c : Ctx} {t : ℚ} {w : Point} (h : Gap c t w) {p : Point} (hp : p ∈ c.P) (k : t < c.X p) : c.X w ≤ c.X p := by
  by_contra q
  exact absurd (h.no p hp (not_le.mp q)) (not_le.mpr k)

theorem Gap.order {c : Ctx} (g : c.Good) {t : ℚ} {w : Point} (h : Gap c t w) {i j : ℕ} (hi : i < c.N) (hj : j < c.N)
    (si : Spans c i t) (sj : Spans c j t) (hn : ¬ AboveR c i j t) : c.f j (c.X w) ≤ c.f i (c.X w) := by
  by_contra q
  have q := not_le.mp q
  have hlt := h.lt
  have e : ∀ k, c.f k (c.X w) = c.f k t + c.K k * (c.X w - t) := fun k => by unfold Ctx.f; ring
  have n1 : ¬ c.f i t < c.f j t := fun z => hn (Or.inl z)
  rcases eq_or_lt_of_le (not_lt.mp n1) with k | k
  · have n2 : ¬ c.K i < c.K j := fun z => hn (Or.inr ⟨k.symm, z⟩)
    rw [e i, e j] at q
    nlinarith
  · by_cases ex : ∃ s, t ≤ s ∧ s ≤ c.X w ∧ c.f j s = c.f i s
    · obtain ⟨s, s1, s2, s3⟩ := ex
      have s1' : t < s := lt_of_le_of_ne s1 fun z => by rw [← z] at s3; linarith
      have s2' : s < c.X w := lt_of_le_of_ne s2 fun z => by rw [z] at s3; linarith
      have ncl : ¬ c.Coll i j := fun z => by have := z.f_eq t; linarith
      have bi := h.ge (g.memB i hi) si.2
      have bj := h.ge (g.memB j hj) sj.2
      have hX : c.X (at' c i s) = s := at'_X
      have m := g.cross i hi j hj ncl (at' c i s) at'_on (at'_on' s3.symm) (by rw [hX]; exact si.1.trans s1)
        (by rw [hX]; linarith) (by rw [hX]; exact sj.1.trans s1) (by rw [hX]; linarith)
      have := h.no _ m (by rw [hX]; exact s2')
      rw [hX] at this
      linarith
    · have := (line_sign (c := c) (i := j) (j := i) (fun s a b z => ex ⟨s, a, b, z⟩) hlt.le).mp k
      linarith

open Classical in
/-- The segments present immediately to the right of `t` which are at `X` below `y`. -/
noncomputable def lowE (c : Ctx) (t X y : ℚ) : Finset ℕ := (range c.N).filter fun i => Spans c i t ∧ c.f i X < y

open Classical in
/-- The segments present immediately to the right of `t` which pass through a point. -/
noncomputable def thru (c : Ctx) (t : ℚ) (w : Point) : Finset ℕ := (range c.N).filter fun i => Spans c i t ∧ c.On i w

theorem mem_lowE {c : Ctx} {t X y : ℚ} {i : ℕ} : i ∈ lowE c t X y ↔ i < c.N ∧ Spans c i t ∧ c.f i X < y := by
  unfold lowE; simp

theorem mem_thru {c : Ctx} {t : ℚ} {w : Point} {i : ℕ} : i ∈ thru c t w ↔ i < c.N ∧ Spans c i t ∧ c.On i w := by
  unfold thru; simp

theorem lowE_thru (c : Ctx) (t : ℚ) (w : Point) : Disjoint (lowE c t (c.X w) w.y) (thru c t w) := by
  rw [disjoint_left]
  intro i h1 h2
  have a := (mem_lowE.mp h1).2.2
  have b := (mem_thru.mp h2).2.2
  unfold Ctx.On at b
  linarith

/-- A set closed downwards because the order at `X` follows the one at `t`. -/
theorem lower_lowE {c : Ctx} {t X y : ℚ}
    (h : ∀ i < c.N, ∀ j < c.N, Spans c i t → Spans c j t → ¬ AboveR c i j t → c.f j X ≤ c.f i X) :
    Lower c t (lowE c t X y) where
  lt := fun i hi => (mem_lowE.mp hi).1
  spans := fun i hi => (mem_lowE.mp hi).2.1
  low := by
    intro i hi j hj sj hn
    obtain ⟨a, b, d⟩ := mem_lowE.mp hi
    exact mem_lowE.mpr ⟨hj, sj, lt_of_le_of_lt (h i a j hj b sj hn) d⟩

theorem lower_union {c : Ctx} {t : ℚ} {w : Point}
    (h : ∀ i < c.N, ∀ j < c.N, Spans c i t → Spans c j t → ¬ AboveR c i j t → c.f j (c.X w) ≤ c.f i (c.X w)) :
    Lower c t (lowE c t (c.X w) w.y ∪ thru c t w) := by
  have key : ∀ i, i ∈ lowE c t (c.X w) w.y ∪ thru c t w ↔ i < c.N ∧ Spans c i t ∧ c.f i (c.X w) ≤ w.y := by
    intro i
    rw [mem_union, mem_lowE, mem_thru]
    unfold Ctx.On
    constructor
    · rintro (⟨a, b, d⟩ | ⟨a, b, d⟩)
      · exact ⟨a, b, d.le⟩
      · exact ⟨a, b, d.symm.le⟩
    · rintro ⟨a, b, d⟩
      rcases eq_or_lt_of_le d with k | k
      · exact Or.inr ⟨a, b, k.symm⟩
      · exact Or.inl ⟨a, b, k⟩
  refine ⟨fun i hi => ((key i).mp hi).1, fun i hi => ((key i).mp hi).2.1, ?_⟩
  intro i hi j hj sj hn
  obtain ⟨a, b, d⟩ := (key i).mp hi
  exact (key j).mpr ⟨hj, sj, (h i a j hj b sj hn).trans d⟩

theorem order_self {c : Ctx} {t : ℚ} {i j : ℕ} (hn : ¬ AboveR c i j t) : c.f j t ≤ c.f i t := by
  by_contra k
  exact hn (Or.inl (not_le.mp k))

/-- Segments below the point are present on both sides of it. -/
theorem Gap.lowE_eq {c : Ctx} (g : c.Good) {t : ℚ} {w : Point} (h : Gap c t w) :
    lowE c t (c.X w) w.y = lowE c (c.X w) (c.X w) w.y := by
  ext i
  rw [mem_lowE, mem_lowE]
  refine and_congr_right fun hi => ?_
  have hlt := h.lt
  constructor
  · rintro ⟨⟨a, b⟩, d⟩
    refine ⟨⟨a.trans hlt.le, lt_of_le_of_ne (h.ge (g.memB i hi) b) fun e => ?_⟩, d⟩
    have := (g.eq_iff h.mem (g.memB i hi)).mpr e
    have o := g.onB i hi
    rw [← this] at o
    unfold Ctx.On at o
    linarith
  · rintro ⟨⟨a, b⟩, d⟩
    refine ⟨⟨?_, hlt.trans b⟩, d⟩
    by_contra q
    have := h.ge (g.memA i hi) (not_le.mp q)
    have := (g.eq_iff h.mem (g.memA i hi)).mpr (le_antisymm this a)
    have o := g.onA i hi
    rw [← this] at o
    unfold Ctx.On at o
    linarith

/-- The selected pieces which start at a point. -/
theorem sum_starts {c : Ctx} {S : Shp} (g : c.Good) (w' : Wf c S.lin) {w : Point} (hw : w ∈ c.P)
    (noInt : ∀ e, IsL S.lin e → c.On (S.lin.sid e) w → ¬ Int c S.lin e (c.X w)) :
    ∑ x ∈ (range (cnt S.lin)).filter (fun x => x % 2 = 0 ∧ S.lin.start x = w), z (flag S.fromResult x) =
      ∑ i ∈ thru c (c.X w) w, z (selAt c S (c.X w) i) := by
  have isL : ∀ {x}, x ∈ (range (cnt S.lin)).filter (fun x => x % 2 = 0 ∧ S.lin.start x = w) →
      IsL S.lin x ∧ S.lin.start x = w := fun hx => by
    rw [mem_filter, mem_range] at hx
    exact ⟨⟨hx.1, hx.2.1⟩, hx.2.2⟩
  have l : ∀ {x}, S.lin.start x = w → lx c S.lin x = c.X w := fun e => by unfold lx; rw [e]
  refine sum_bij (fun x _ => S.lin.sid x) ?_ ?_ ?_ ?_
  · intro x hx
    obtain ⟨hx, e⟩ := isL hx
    have := l e
    refine mem_thru.mpr ⟨w'.sidLt x hx, w'.spans hx this.le (by rw [← this]; exact w'.lr x hx), ?_⟩
    have := w'.onL x hx
    rwa [e] at this
  · intro x hx y hy e
    obtain ⟨hx, ex⟩ := isL hx
    obtain ⟨hy, ey⟩ := isL hy
    have lx' := l ex
    have ly' := l ey
    exact w'.piece_unique hx hy e lx'.le (by rw [← lx']; exact w'.lr x hx) ly'.le (by rw [← ly']; exact w'.lr y hy)
  · intro i hi
    obtain ⟨a, b, d⟩ := mem_thru.mp hi
    obtain ⟨x, hx, rfl, h1, h2⟩ := w'.piece a b
    have e : lx c S.lin x = c.X w := by
      by_contra k
      exact noInt x hx d ⟨lt_of_le_of_ne h1 k, h2⟩
    have : S.lin.start x = w := (g.eq_iff (w'.memP x hx.1) hw).mpr e
    exact ⟨x, by rw [mem_filter, mem_range]; exact ⟨hx.1, hx.2, this⟩, rfl⟩
  · intro x hx
    obtain ⟨hx, e⟩ := isL hx
    have := l e
    rw [selAt_eq w' hx this.le (by rw [← this]; exact w'.lr x hx)]

/-- The selected pieces which end at a point. -/
theorem sum_ends {c : Ctx} {S : Shp} (g : c.Good) (w' : Wf c S.lin) {w : Point} {t : ℚ} (h : Gap c t w)
    (noInt : ∀ e, IsL S.lin e → c.On (S.lin.sid e) w → ¬ Int c S.lin e (c.X w)) :
    ∑ x ∈ (range (cnt S.lin)).filter (fun x => x % 2 = 0 ∧ S.lin.end x = w), z (flag S.fromResult x) =
      ∑ i ∈ thru c t w, z (selAt c S t i) := by
  have isL : ∀ {x}, x ∈ (range (cnt S.lin)).filter (fun x => x % 2 = 0 ∧ S.lin.end x = w) →
      IsL S.lin x ∧ S.lin.end x = w := fun hx => by
    rw [mem_filter, mem_range] at hx
    exact ⟨⟨hx.1, hx.2.1⟩, hx.2.2⟩
  have hlt := h.lt
  have r : ∀ {x}, IsL S.lin x → S.lin.end x = w → lx c S.lin x ≤ t ∧ t < rx c S.lin x := fun {x} hx e => by
    have e' : rx c S.lin x = c.X w := by unfold rx; rw [e]
    refine ⟨h.no _ (w'.memP x hx.1) ?_, by rw [e']; exact hlt⟩
    rw [← e']; exact w'.lr x hx
  refine sum_bij (fun x _ => S.lin.sid x) ?_ ?_ ?_ ?_
  · intro x hx
    obtain ⟨hx, e⟩ := isL hx
    obtain ⟨a, b⟩ := r hx e
    refine mem_thru.mpr ⟨w'.sidLt x hx, w'.spans hx a b, ?_⟩
    have := w'.onR x hx
    rwa [e] at this
  · intro x hx y hy e
    obtain ⟨hx, ex⟩ := isL hx
    obtain ⟨hy, ey⟩ := isL hy
    exact w'.piece_unique hx hy e (r hx ex).1 (r hx ex).2 (r hy ey).1 (r hy ey).2
  · intro i hi
    obtain ⟨a, b, d⟩ := mem_thru.mp hi
    obtain ⟨x, hx, rfl, h1, h2⟩ := w'.piece a b
    have m := h.ge (end_mem w' hx) h2
    have e : c.X w = rx c S.lin x := by
      by_contra k
      exact noInt x hx d ⟨lt_of_le_of_lt h1 hlt, lt_of_le_of_ne m k⟩
    have : S.lin.end x = w := (g.eq_iff (end_mem w' hx) h.mem).mpr e.symm
    exact ⟨x, by rw [mem_filter, mem_range]; exact ⟨hx.1, hx.2, this⟩, rfl⟩
  · intro x hx
    obtain ⟨hx, e⟩ := isL hx
    rw [selAt_eq w' hx (r hx e).1 (r hx e).2]

theorem xor_eq_false {a b : Bool} (h : (a ^^ b) = false) : a = b := by
  revert h; cases a <;> cases b <;> simp

theorem par_mem {c : Ctx} {T : Bool} {D : Finset ℕ} (h : par c T D = true) : ∃ i ∈ D, opB c i = T := by
  by_contra k
  have : ∑ i ∈ D, z (opB c i == T) = 0 := sum_eq_zero fun i hi => by
    have : opB c i ≠ T := fun q => k ⟨i, hi, q⟩
    rw [beq_false_of_ne this]; rfl
  unfold par at h
  rw [this] at h
  cases h

theorem par_union {c : Ctx} {T : Bool} {D E : Finset ℕ} (h : Disjoint D E) :
    par c T (D ∪ E) = (par c T D ^^ par c T E) := by
  unfold par
  rw [sum_union h, bit_add]

section
variable {ε : ℚ} {first second lin kept full : List Segment} {R : Set Point} {T : Bool} {stop : Point → Bool}

theorem Setting.kept_eq (h : Setting ε first second lin kept full R T stop) : Sweep.kept first second (!T) = kept := by
  rcases h.ord with ⟨rfl, rfl, rfl⟩ | ⟨rfl, rfl, rfl⟩ <;> rfl

/-- The parities of the segments of an operand through a point, on both its sides. -/
theorem Setting.even_at (h : Setting ε first second lin kept full R T stop) (hk : NoOverlap kept) {w : Point} {t : ℚ}
    (hg : Gap (ctxOf first second ε) t w) (H : ∀ s ∈ full, s ∉ kept → lo s ≠ w ∧ hi s ≠ w) :
    par (ctxOf first second ε) (!T) (thru (ctxOf first second ε) t w) =
      par (ctxOf first second ε) (!T) (thru (ctxOf first second ε) ((ctxOf first second ε).X w) w) := by
  classical
  have g := h.good
  have e : ∀ t, par (ctxOf first second ε) (!T) (thru (ctxOf first second ε) t w) =
      xorSum (fun s => decide (sSpans ε s t ∧ w.y = sF ε s (Xe ε w))) kept := by
    intro t
    rw [← h.kept_eq]
    refine par_filter _ fun j => ?_
    rw [mem_thru, decide_eq_true_iff]
    rfl
  rw [e, e]
  refine xor_eq_false ?_
  rw [← xorSum_xor]
  have cl := h.edges.closed fun p => decide (p = w)
  rw [xorSum_sub (nodup_of_noOverlap h.noOvFull) (nodup_of_noOverlap hk) h.sub] at cl
  · rw [← cl]
    refine xorSum_congr fun s hs => ?_
    obtain ⟨i, hi', _, rfl⟩ := h.atN hs
    set s := segAt (first ++ second) i with hsd
    have lohi : (decide (s.start = w) ^^ decide (s.end = w)) = (decide (lo s = w) ^^ decide (hi s = w)) := by
      unfold lo hi toSortedPair
      split
      · rfl
      · exact Bool.xor_comm _ _
    rw [lohi]
    have hlt := hg.lt
    have inc : Xe ε (lo s) < Xe ε (hi s) := g.lt i hi'
    have eA : lo s = w ↔ Xe ε (lo s) = Xe ε w := g.eq_iff (g.memA i hi') hg.mem
    have eB : hi s = w ↔ Xe ε (hi s) = Xe ε w := g.eq_iff (g.memB i hi') hg.mem
    have oA : lo s = w → w.y = sF ε s (Xe ε w) := fun k => by rw [← k]; exact (sF_lo s).symm
    have oB : hi s = w → w.y = sF ε s (Xe ε w) := fun k => by rw [← k]; exact (sF_hi inc).symm
    have gA : Xe ε (lo s) < Xe ε w → Xe ε (lo s) ≤ t := hg.no _ (g.memA i hi')
    have gB : t < Xe ε (hi s) → Xe ε w ≤ Xe ε (hi s) := hg.ge (g.memB i hi')
    have hlt' : t < Xe ε w := hlt
    by_cases o : w.y = sF ε s (Xe ε w)
    · have d1 : sSpans ε s t ↔ Xe ε (lo s) < Xe ε w ∧ Xe ε w ≤ Xe ε (hi s) := by
        unfold sSpans
        exact ⟨fun k => ⟨by linarith [k.1], gB k.2⟩, fun k => ⟨gA k.1, by linarith [k.2]⟩⟩
      have d2 : sSpans ε s ((ctxOf first second ε).X w) ↔ Xe ε (lo s) ≤ Xe ε w ∧ Xe ε w < Xe ε (hi s) := Iff.rfl
      simp only [o, and_true, d1, d2, eA, eB]
      rcases lt_trichotomy (Xe ε (lo s)) (Xe ε w) with a | a | a <;>
        rcases lt_trichotomy (Xe ε (hi s)) (Xe ε w) with b | b | b <;>
        first
        | (exfalso; linarith)
        | (simp [a, b, a.le, b.le, a.ne, b.ne, a.ne', b.ne', not_le.mpr a, not_le.mpr b, not_lt.mpr a.le,
            not_lt.mpr b.le]; done)
        | (rw [decide_eq_true (by constructor <;> linarith), decide_eq_false (by rintro ⟨_, _⟩; linarith),
            decide_eq_false (by intro k; linarith), decide_eq_true (by linarith)]; rfl)
        | (rw [decide_eq_false (by rintro ⟨_, _⟩; linarith), decide_eq_true (by constructor <;> linarith),
            decide_eq_true (by linarith), decide_eq_false (by intro k; linarith)]; rfl)
    · simp only [o, and_false, decide_false, Bool.xor_self]
      rw [decide_eq_false fun k => o (oA k), decide_eq_false fun k => o (oB k)]; rfl
  · intro s hs hn
    obtain ⟨a, b⟩ := H s hs hn
    have : s.start ≠ w ∧ s.end ≠ w := by
      unfold lo hi toSortedPair at *
      split at a
      · exact ⟨by simpa using a, by simp_all⟩
      · exact ⟨by simp_all, by simp_all⟩
    rw [decide_eq_false this.1, decide_eq_false this.2]; rfl
end

/-- Nothing of the edges has been left out before the range of the sweep. -/
def NoLeft (ε : ℚ) (first second kept full : List Segment) (stop : Point → Bool) : Prop :=
  ∀ s ∈ full, s ∈ kept ∨ ∀ v ∈ points (first ++ second), stop v = false → Xe ε v < Xe ε (lo s)

/-- What is not left out, depending on the operation. -/
def Glue (ε : ℚ) (op : ShpOp) (first second full1 full2 : List Segment) (stop : Point → Bool) : Prop :=
  match op with
  | .difference => NoLeft ε first second first full1 stop
  | .intersection => NoLeft ε first second first full1 stop ∨ NoLeft ε first second second full2 stop
  | _ => NoLeft ε first second first full1 stop ∧ NoLeft ε first second second full2 stop

section
variable {ε : ℚ} {op : ShpOp} {first second full1 full2 : List Segment} {R1 R2 : Set Point} {stop : Point → Bool}
  {S : Shp} {M : Mix} {acc : List ℕ}

theorem Setting.far {lin kept full : List Segment} {R : Set Point} {T : Bool}
    (h : Setting ε first second lin kept full R T stop) {t : ℚ} {w : Point}
    (hg : Gap (ctxOf first second ε) t w) (hw : stop w = false) (hok : okAt ε first second lin stop t) :
    ∀ s ∈ full, s ∉ kept → lo s ≠ w ∧ hi s ≠ w := by
  intro s hs hn
  have inc := h.edges.inc s hs
  have hlt : t < Xe ε w := hg.lt
  rcases h.drop s hs with k | k | k
  · exact absurd k hn
  · obtain ⟨⟨u, hu, a⟩, _⟩ := hok
    have := k u hu
    constructor <;> rintro rfl <;> linarith
  · have := k w hg.mem hw
    constructor <;> rintro rfl <;> linarith

theorem Setting.near {lin kept full : List Segment} {R : Set Point} {T : Bool}
    (h : Setting ε first second lin kept full R T stop) {t : ℚ} {w : Point}
    (hg : Gap (ctxOf first second ε) t w) (hw : stop w = false) (hok : NoLeft ε first second kept full stop) :
    ∀ s ∈ full, s ∉ kept → lo s ≠ w ∧ hi s ≠ w := by
  intro s hs hn
  have inc := h.edges.inc s hs
  rcases hok s hs with k | k
  · exact absurd k hn
  · have := k w hg.mem hw
    constructor <;> rintro rfl <;> linarith

/-- The levels immediately below and above a point differ equally on both its sides. -/
theorem Two.same (h : Two ε first second full1 full2 R1 R2 stop) (gl : Glue ε op first second full1 full2 stop)
    {t : ℚ} {w : Point} (hg : Gap (ctxOf first second ε) t w) (hw : stop w = false) :
    let c := ctxOf first second ε
    opv op (par c true (lowE c t (c.X w) w.y ∪ thru c t w)) (par c false (lowE c t (c.X w) w.y ∪ thru c t w)) =
      opv op (par c true (lowE c t (c.X w) w.y ∪ thru c (c.X w) w))
        (par c false (lowE c t (c.X w) w.y ∪ thru c (c.X w) w)) := by
  intro c
  have g : c.Good := h.s1.good
  have hr : Within c stop t := ⟨w, hg.mem, hw, hg.lt.le⟩
  have d : Disjoint (lowE c t (c.X w) w.y) (thru c (c.X w) w) := by
    have := lowE_thru c (c.X w) w
    rwa [← hg.lowE_eq g] at this
  rw [par_union (lowE_thru c t w), par_union (lowE_thru c t w), par_union d, par_union d]
  have E1 : NoLeft ε first second first full1 stop ∨ okAt ε first second second stop t →
      par c true (thru c t w) = par c true (thru c (c.X w) w) := by
    intro k
    have := h.s2.even_at h.s1.noOvLin hg (k.elim (h.s2.near hg hw) (h.s2.far hg hw))
    exact this
  have E2 : NoLeft ε first second second full2 stop ∨ okAt ε first second first stop t →
      par c false (thru c t w) = par c false (thru c (c.X w) w) := by
    intro k
    have := h.s1.even_at h.s2.noOvLin hg (k.elim (h.s1.near hg hw) (h.s1.far hg hw))
    exact this
  have A : ∀ T, (par c T (lowE c t (c.X w) w.y) ^^ par c T (thru c t w)) = true → ∃ i < c.N, Spans c i t ∧ opB c i = T := by
    intro T k
    rw [← par_union (lowE_thru c t w)] at k
    obtain ⟨i, hi, e⟩ := par_mem k
    rcases mem_union.mp hi with q | q
    · exact ⟨i, (mem_lowE.mp q).1, (mem_lowE.mp q).2.1, e⟩
    · exact ⟨i, (mem_thru.mp q).1, (mem_thru.mp q).2.1, e⟩
  have A1 : (par c true (lowE c t (c.X w) w.y) ^^ par c true (thru c t w)) = true → okAt ε first second first stop t := by
    intro k
    obtain ⟨i, hi, si, e⟩ := A true k
    exact ⟨⟨_, h.s1.opT hi e, si.1⟩, hr⟩
  have A2 : (par c false (lowE c t (c.X w) w.y) ^^ par c false (thru c t w)) = true →
      okAt ε first second second stop t := by
    intro k
    obtain ⟨i, hi, si, e⟩ := A false k
    exact ⟨⟨_, h.s2.opT hi e, si.1⟩, hr⟩
  have L1 : NoLeft ε first second first full1 stop → (op = .difference ∨ op = .intersection) →
      opv op (par c true (lowE c t (c.X w) w.y) ^^ par c true (thru c t w))
        (par c false (lowE c t (c.X w) w.y) ^^ par c false (thru c t w)) =
      opv op (par c true (lowE c t (c.X w) w.y) ^^ par c true (thru c (c.X w) w))
        (par c false (lowE c t (c.X w) w.y) ^^ par c false (thru c (c.X w) w)) := by
    intro k ho
    rw [← E1 (Or.inl k)]
    rcases hv : (par c true (lowE c t (c.X w) w.y) ^^ par c true (thru c t w)) with _ | _
    · rcases ho with rfl | rfl <;> rfl
    · rw [E2 (Or.inr (A1 hv))]
  have L2 : NoLeft ε first second second full2 stop → op = .intersection →
      opv op (par c true (lowE c t (c.X w) w.y) ^^ par c true (thru c t w))
        (par c false (lowE c t (c.X w) w.y) ^^ par c false (thru c t w)) =
      opv op (par c true (lowE c t (c.X w) w.y) ^^ par c true (thru c (c.X w) w))
        (par c false (lowE c t (c.X w) w.y) ^^ par c false (thru c (c.X w) w)) := by
    rintro k rfl
    rw [← E2 (Or.inl k)]
    rcases hv : (par c false (lowE c t (c.X w) w.y) ^^ par c false (thru c t w)) with _ | _
    · simp [opv]
    · rw [E1 (Or.inr (A2 hv))]
  cases op with
  | difference => exact L1 gl (Or.inl rfl)
  | intersection => exact gl.elim (fun k => L1 k (Or.inr rfl)) fun k => L2 k rfl
  | union => rw [E1 (Or.inl gl.1), E2 (Or.inl gl.2)]
  | symmetricDifference => rw [E1 (Or.inl gl.1), E2 (Or.inl gl.2)]

/-- An even number of selected pieces starts or ends at a point of the range. -/
theorem Fin.even (h : Fin ε op first second full1 full2 R1 R2 stop S M acc)
    (gl : Glue ε op first second full1 full2 stop) {w : Point} (hw : w ∈ (ctxOf first second ε).P) (hs : stop w = false) :
    ∑ x ∈ (range (cnt S.lin)).filter (fun x => x % 2 = 0 ∧ S.lin.start x = w), z (flag S.fromResult x) +
      ∑ x ∈ (range (cnt S.lin)).filter (fun x => x % 2 = 0 ∧ S.lin.end x = w), z (flag S.fromResult x) = 0 := by
  have w' := h.wf
  have g := h.good
  set c := ctxOf first second ε with hc
  obtain ⟨t, hg⟩ := exists_gap c hw
  have no : ∀ e, IsL S.lin e → c.On (S.lin.sid e) w → ¬ Int c S.lin e (c.X w) := by
    have := h.h1.noInt w hw hs
    rw [← h.rel.lin] at this
    exact this
  rw [sum_starts g w' hw no, sum_ends g w' hg no]
  have r1 := h.rule (t := c.X w) ⟨w, hw, hs, le_rfl⟩
  have r2 := h.rule (t := t) ⟨w, hw, hs, hg.lt.le⟩
  have o1 : ∀ i < c.N, ∀ j < c.N, Spans c i (c.X w) → Spans c j (c.X w) → ¬ AboveR c i j (c.X w) →
      c.f j (c.X w) ≤ c.f i (c.X w) := fun _ _ _ _ _ _ => order_self
  have o2 : ∀ i < c.N, ∀ j < c.N, Spans c i t → Spans c j t → ¬ AboveR c i j t →
      c.f j (c.X w) ≤ c.f i (c.X w) := fun _ hi _ hj => hg.order g hi hj
  have a1 := r1.level g _ _ rfl (lower_lowE (y := w.y) o1)
  have a2 := r1.level g _ _ rfl (lower_union o1)
  have b1 := r2.level g _ _ rfl (lower_lowE (y := w.y) o2)
  have b2 := r2.level g _ _ rfl (lower_union o2)
  have sm := h.two.same gl hg hs
  rw [sum_union (lowE_thru _ _ _), bit_add, a1] at a2
  rw [sum_union (lowE_thru _ _ _), bit_add, b1] at b2
  simp only [← hc] at sm
  rw [hg.lowE_eq g] at sm b2
  rw [sm, ← a2] at b2
  have e : bit (∑ i ∈ thru c t w, z (selAt c S t i)) = bit (∑ i ∈ thru c (c.X w) w, z (selAt c S (c.X w) i)) := by
    revert b2
    generalize bit (∑ i ∈ thru c t w, z (selAt c S t i)) = a
    generalize bit (∑ i ∈ thru c (c.X w) w, z (selAt c S (c.X w) i)) = b
    generalize opv op _ _ = d
    cases a <;> cases b <;> cases d <;> simp
  have e' := congrArg z e
  rw [z_bit, z_bit] at e'
  rw [e']
  generalize (∑ i ∈ thru c (c.X w) w, z (selAt c S (c.X w) i)) = a
  revert a; decide
end

end Rene.Sweep
