import Verif.Lemmas.Sweep.ShapeEdges

/-! The signed area of a simple contour. -/

namespace Rene.Sweep
open Rene Spec

variable {ε : ℚ}

/-- The direction of an edge. -/
def sg (s : Segment) : ℚ := if goesUp s then 1 else -1

/-- The height of the line of the segment at the abscissa. -/
def ht (ε : ℚ) (s : Segment) (t : ℚ) : ℚ :=
  (lo s).y + (t - Xe ε (lo s)) * (((hi s).y - (lo s).y) / (Xe ε (hi s) - Xe ε (lo s)))

/-- A primitive of twice the height. -/
def prim (ε : ℚ) (s : Segment) (t : ℚ) : ℚ :=
  2 * t * (lo s).y + (t * t - 2 * t * Xe ε (lo s)) * (((hi s).y - (lo s).y) / (Xe ε (hi s) - Xe ε (lo s)))

theorem prim_sub (s : Segment) (a b : ℚ) : prim ε s b - prim ε s a = 2 * (b - a) * ht ε s ((a + b) / 2) := by
  unfold prim ht; ring

theorem prim_edge {s : Segment} (h : Xe ε (lo s) < Xe ε (hi s)) : prim ε s (Xe ε (hi s)) - prim ε s (Xe ε (lo s)) =
    (Xe ε (hi s) - Xe ε (lo s)) * ((lo s).y + (hi s).y) := by
  rw [prim_sub]
  unfold ht
  have : Xe ε (hi s) - Xe ε (lo s) ≠ 0 := by linarith
  field_simp
  ring

theorem cr_ht {s : Segment} (h : Xe ε (lo s) < Xe ε (hi s)) (p : Point) :
    cr (lo s) (hi s) p = (Xe ε (hi s) - Xe ε (lo s)) * (p.y - ht ε s (Xe ε p)) := by
  have h' : Xe ε (hi s) - Xe ε (lo s) ≠ 0 := by linarith
  unfold ht
  have e : (Xe ε (hi s) - Xe ε (lo s)) * (p.y - ((lo s).y + (Xe ε p - Xe ε (lo s)) *
      (((hi s).y - (lo s).y) / (Xe ε (hi s) - Xe ε (lo s))))) =
      (Xe ε (hi s) - Xe ε (lo s)) * (p.y - (lo s).y) - (Xe ε p - Xe ε (lo s)) * ((hi s).y - (lo s).y) := by
    field_simp
    ring
  rw [e]
  unfold cr Xe; ring

/-! ### Alternating sums -/

theorem sum_perm {g : Segment → ℚ} {l l' : List Segment} (h : l.Perm l') : (l.map g).sum = (l'.map g).sum :=
  (h.map g).sum_eq

/-- Edges sorted by height alternate. -/
theorem alternating (h : Segment → ℚ) (b : Bool) : ∀ (n : ℕ) (l : List Segment), l.length ≤ n →
    l.Pairwise (fun s t => h s < h t) →
    (∀ s ∈ l, (goesUp s ^^ xorSum (fun u => decide (h u < h s)) l) = b) → (l.map sg).sum = 0 → l ≠ [] →
    (b = true → (l.map fun s => sg s * h s).sum < 0) ∧ (b = false → 0 < (l.map fun s => sg s * h s).sum) := by
  intro n
  induction n with
  | zero =>
    intro l hl _ _ _ hne
    exact absurd (List.eq_nil_of_length_eq_zero (by omega)) hne
  | succ n ih =>
    intro l hl hp ha hs hne
    rcases l with _ | ⟨x, _ | ⟨y, l⟩⟩
    · exact absurd rfl hne
    · simp only [List.map_cons, List.map_nil, List.sum_cons, List.sum_nil] at hs
      unfold sg at hs
      split at hs <;> norm_num at hs
    · rw [List.pairwise_cons] at hp
      obtain ⟨hx, hp⟩ := hp
      have hp' := hp
      rw [List.pairwise_cons] at hp
      obtain ⟨hy, hp⟩ := hp
      have hxy := hx y List.mem_cons_self
      have f0 : ∀ s ∈ l, decide (h s < h x) = false := fun s hs' => decide_eq_false (by
        have := hx s (List.mem_cons_of_mem _ hs'); exact this.asymm)
      have f1 : ∀ s ∈ l, decide (h s < h y) = false := fun s hs' => decide_eq_false (hy s hs').asymm
      have ux : goesUp x = b := by
        have := ha x List.mem_cons_self
        simp only [xorSum] at this
        rw [xorSum_false f0, decide_eq_false (lt_irrefl _), decide_eq_false hxy.asymm] at this
        simpa using this
      have uy : goesUp y = !b := by
        have := ha y (List.mem_cons_of_mem _ List.mem_cons_self)
        simp only [xorSum] at this
        rw [xorSum_false f1, decide_eq_false (lt_irrefl _), decide_eq_true hxy] at this
        revert this
        cases goesUp y <;> cases b <;> simp
      have rest : ∀ s ∈ l, (goesUp s ^^ xorSum (fun u => decide (h u < h s)) l) = b := by
        intro s hs'
        have := ha s (List.mem_cons_of_mem _ (List.mem_cons_of_mem _ hs'))
        simp only [xorSum] at this
        rw [decide_eq_true (hx s (List.mem_cons_of_mem _ hs')), decide_eq_true (hy s hs')] at this
        simpa using this
      have sxy : sg x + sg y = 0 ∧ sg x * h x + sg y * h y = (if b then -1 else 1) * (h y - h x) := by
        unfold sg
        rw [ux, uy]
        cases b <;> simp <;> ring
      simp only [List.map_cons, List.sum_cons] at hs ⊢
      have hs' : (l.map sg).sum = 0 := by linarith [sxy.1]
      have key : (b = true → (l.map fun s => sg s * h s).sum ≤ 0) ∧ (b = false → 0 ≤ (l.map fun s => sg s * h s).sum) := by
        by_cases hl0 : l = []
        · subst hl0; simp
        · obtain ⟨k1, k2⟩ := ih l (by simp at hl; omega) hp rest hs' hl0
          exact ⟨fun z => (k1 z).le, fun z => (k2 z).le⟩
      have e2 := sxy.2
      constructor
      · intro z
        have := key.1 z
        rw [z] at e2
        simp only [if_true] at e2
        linarith
      · intro z
        have := key.2 z
        rw [z] at e2
        simp only [Bool.false_eq_true, if_false] at e2
        linarith

/-! ### Telescoping sums -/

theorem contour_sum (g : Point → ℚ) (vs : List Point) : ((toContourSegments vs).map fun s => g s.end - g s.start).sum = 0 := by
  have h : ∀ l : List Segment, (l.map fun s => g s.end - g s.start).sum =
      ((l.map Segment.end).map g).sum - ((l.map Segment.start).map g).sum := by
    intro l
    induction l with
    | nil => simp
    | cons s l ih => simp only [List.map_cons, List.sum_cons]; rw [ih]; ring
  rw [h, contour_starts]
  cases vs with
  | nil => simp [toContourSegments]
  | cons v vs => rw [contour_ends]; simp; ring

theorem contour_connected {P : Point → Prop} {vs : List Point} (h : ∀ s ∈ toContourSegments vs, P s.start ↔ P s.end) :
    ∀ u ∈ vs, ∀ v ∈ vs, P u ↔ P v := by
  cases vs with
  | nil => intro u hu; simp at hu
  | cons a l =>
    have key : ∀ (l : List Point) (a : Point), (∀ s ∈ consecutive (a :: l), P s.start ↔ P s.end) → ∀ v ∈ a :: l, P a ↔ P v := by
      intro l
      induction l with
      | nil => intro a _ v hv; rw [List.mem_singleton.mp hv]
      | cons b l ih =>
        intro a h v hv
        rcases List.mem_cons.mp hv with rfl | hv
        · rfl
        · have h1 : P a ↔ P b := h ⟨a, b⟩ (by rw [consecutive]; exact List.mem_cons_self)
          exact h1.trans (ih b (fun s hs => h s (by rw [consecutive]; exact List.mem_cons_of_mem _ hs)) v hv)
    have := key l a fun s hs => h s (by rw [toContourSegments]; exact List.mem_append_left _ hs)
    exact fun u hu v hv => (this u hu).symm.trans (this v hv)

/-! ### One slab -/

section
variable {vs : List Point} (h3 : 3 ≤ vs.length) (hn : vs.Nodup) (hf : FullyNoded (toContourSegments vs))
  (hg : Gen ε (· ∈ vs))
include hf hg

theorem ht_distinct {s u : Segment} (hs : s ∈ toContourSegments vs) (hu : u ∈ toContourSegments vs) (hne : s ≠ u) {t : ℚ}
    (s1 : Xe ε (lo s) < t) (s2 : t < Xe ε (hi s)) (u1 : Xe ε (lo u) < t) (u2 : t < Xe ε (hi u)) :
    ht ε s t ≠ ht ε u t := by
  intro e
  have pt : ∀ w : Segment, Xe ε (lo w) < t → t < Xe ε (hi w) →
      ∃ r, 0 < r ∧ r < 1 ∧ (⟨t - ε * ht ε w t, ht ε w t⟩ : Point) = lerp (lo w) (hi w) r := by
    intro w w1 w2
    have wd : 0 < Xe ε (hi w) - Xe ε (lo w) := by linarith
    refine ⟨(t - Xe ε (lo w)) / (Xe ε (hi w) - Xe ε (lo w)), div_pos (by linarith) wd, (div_lt_one wd).mpr (by linarith), ?_⟩
    rw [Point.eq_iff]
    unfold lerp ht
    simp only
    constructor
    · have hx : (hi w).x = Xe ε (hi w) - ε * (hi w).y := by unfold Xe; ring
      have lx : (lo w).x = Xe ε (lo w) - ε * (lo w).y := by unfold Xe; ring
      rw [hx, lx]
      field_simp
      ring
    · field_simp
  obtain ⟨r, r0, r1, er⟩ := pt s s1 s2
  obtain ⟨r', r0', r1', er'⟩ := pt u u1 u2
  rw [← e] at er'
  have m1 : (⟨t - ε * ht ε s t, ht ε s t⟩ : Point) ∈ segPts s := by rw [segPts_eq]; exact ⟨r, r0.le, r1.le, er⟩
  have m2 : (⟨t - ε * ht ε s t, ht ε s t⟩ : Point) ∈ segPts u := by rw [segPts_eq]; exact ⟨r', r0'.le, r1'.le, er'⟩
  have X : Xe ε ⟨t - ε * ht ε s t, ht ε s t⟩ = t := by unfold Xe; simp
  rcases (noded_of_ne hf.2 hs hu hne).2 _ m1 m2 with ⟨k, _⟩
  rcases lo_hi_or s with ⟨z1, z2⟩ | ⟨z1, z2⟩ <;> rcases k with k | k <;> rw [k] at X
  · rw [z1] at s1; linarith
  · rw [z2] at s2; linarith
  · rw [z2] at s2; linarith
  · rw [z1] at s1; linarith

include h3 hn in
theorem slab_sign {t : ℚ} (ht' : ∀ v ∈ vs, Xe ε v ≠ t) (h1 : ∃ v ∈ vs, Xe ε v < t) (h2 : ∃ v ∈ vs, t < Xe ε v) :
    let V := (((toContourSegments vs).filter fun s => decide (Xe ε (lo s) < t ∧ t < Xe ε (hi s))).map
      fun s => sg s * ht ε s t).sum
    ((⟨vs⟩ : Contour).orientation = .counterclockwise → V < 0) ∧ ((⟨vs⟩ : Contour).orientation = .clockwise → 0 < V) := by
  intro V
  obtain ⟨nc, par⟩ := contour_parity (ε := ε) (c := ⟨vs⟩) ⟨h3, hn, hf⟩ hg
  have ss : (Contour.mk vs).segments = toContourSegments vs := rfl
  rw [ss] at par
  set S := toContourSegments vs with hS
  set l := S.filter fun s => decide (Xe ε (lo s) < t ∧ t < Xe ε (hi s)) with hl
  have ml : ∀ s, s ∈ l ↔ s ∈ S ∧ Xe ε (lo s) < t ∧ t < Xe ε (hi s) := by
    intro s; rw [hl, List.mem_filter, decide_eq_true_iff]
  have hX : ∀ s ∈ S, Xe ε (lo s) < Xe ε (hi s) := fun s hs => contour_Xe hg hf hs
  have hne : ∀ s ∈ S, Xe ε s.start ≠ t ∧ Xe ε s.end ≠ t := fun s hs =>
    ⟨ht' _ (contour_mem hs).1, ht' _ (contour_mem hs).2⟩
  have up : ∀ s ∈ S, (goesUp s = true ∧ lo s = s.start ∧ hi s = s.end) ∨ (goesUp s = false ∧ lo s = s.end ∧ hi s = s.start) := by
    intro s hs
    have hd := hf.1 s hs
    rcases lo_hi s with ⟨e1, e2, k⟩ | ⟨e1, e2, k⟩
    · left; exact ⟨(goesUp_iff hd).mpr k, e1, e2⟩
    · right
      refine ⟨?_, e1, e2⟩
      rw [Bool.eq_false_iff]
      intro z
      exact absurd ((goesUp_iff hd).mp z) k
  -- parity by heights
  have alt : ∀ s ∈ l, (goesUp s ^^ xorSum (fun u => decide (ht ε u t < ht ε s t)) l) =
      decide ((⟨vs⟩ : Contour).orientation = .counterclockwise) := by
    intro s hs
    obtain ⟨hs, s1, s2⟩ := (ml s).mp hs
    have wd : 0 < Xe ε (hi s) - Xe ε (lo s) := by linarith
    have zX : Xe ε ⟨t - ε * ht ε s t, ht ε s t⟩ = t := by unfold Xe; simp
    have zm : (⟨t - ε * ht ε s t, ht ε s t⟩ : Point) ∈ openSeg s.start s.end := by
      have e : (⟨t - ε * ht ε s t, ht ε s t⟩ : Point) =
          lerp (lo s) (hi s) ((t - Xe ε (lo s)) / (Xe ε (hi s) - Xe ε (lo s))) := by
        rw [Point.eq_iff]
        unfold lerp ht
        simp only
        constructor
        · have hx : (hi s).x = Xe ε (hi s) - ε * (hi s).y := by unfold Xe; ring
          have lx : (lo s).x = Xe ε (lo s) - ε * (lo s).y := by unfold Xe; ring
          rw [hx, lx]
          field_simp
          ring
        · field_simp
      have r0 : 0 < (t - Xe ε (lo s)) / (Xe ε (hi s) - Xe ε (lo s)) := div_pos (by linarith) wd
      have r1 : (t - Xe ε (lo s)) / (Xe ε (hi s) - Xe ε (lo s)) < 1 := (div_lt_one wd).mpr (by linarith)
      rw [e]
      generalize (t - Xe ε (lo s)) / (Xe ε (hi s) - Xe ε (lo s)) = r at *
      rcases lo_hi_or s with ⟨z1, z2⟩ | ⟨z1, z2⟩ <;> rw [z1, z2]
      · exact ⟨r, r0, r1, rfl⟩
      · refine ⟨1 - r, by linarith, by linarith, ?_⟩
        rw [lerp_swap]
    have := par s hs _ zm
    rw [← this]
    congr 1
    unfold downParity
    rw [hl]
    have filt : ∀ L : List Segment, (∀ u ∈ L, u ∈ S) →
        xorSum (fun u => decide (ht ε u t < ht ε s t)) (L.filter fun s => decide (Xe ε (lo s) < t ∧ t < Xe ε (hi s))) =
        xorSum (fun u => below ε u ⟨t - ε * ht ε s t, ht ε s t⟩) L := by
      intro L
      induction L with
      | nil => intro _; rfl
      | cons u L ih =>
        intro hL
        have hu := hL u List.mem_cons_self
        have ih := ih fun w hw => hL w (List.mem_cons_of_mem _ hw)
        have hlo : Xe ε (lo u) ≠ t := ht' _ (lo_hi_mem hu).1
        have wu := hX u hu
        have cb := cr_ht wu ⟨t - ε * ht ε s t, ht ε s t⟩
        rw [zX] at cb
        simp only at cb
        by_cases k : Xe ε (lo u) < t ∧ t < Xe ε (hi u)
        · rw [List.filter_cons_of_pos (by rw [decide_eq_true_iff]; exact k)]
          simp only [xorSum]
          rw [ih]
          congr 1
          rw [Bool.eq_iff_iff, decide_eq_true_iff, below_iff, zX, cb]
          constructor
          · intro z; exact ⟨k.1.le, k.2, mul_pos (by linarith) (by linarith)⟩
          · rintro ⟨_, _, z⟩
            have := pos_of_mul_pos_right z (by linarith)
            linarith
        · rw [List.filter_cons_of_neg (by rw [decide_eq_true_iff]; exact k)]
          simp only [xorSum]
          rw [ih]
          have : below ε u ⟨t - ε * ht ε s t, ht ε s t⟩ = false := by
            refine bool_false fun z => k ?_
            rw [below_iff, zX] at z
            exact ⟨lt_of_le_of_ne z.1 hlo, z.2.1⟩
          rw [this, Bool.false_xor]
    exact filt S fun u hu => hu
  -- closedness
  have zero : (l.map sg).sum = 0 := by
    have := contour_sum (fun p => if t < Xe ε p then 1 else 0) vs
    rw [← hS] at this
    rw [← this, hl]
    have filt : ∀ L : List Segment, (∀ u ∈ L, u ∈ S) →
        ((L.filter fun s => decide (Xe ε (lo s) < t ∧ t < Xe ε (hi s))).map sg).sum =
        (L.map fun s => (if t < Xe ε s.end then (1 : ℚ) else 0) - if t < Xe ε s.start then 1 else 0).sum := by
      intro L
      induction L with
      | nil => intro _; rfl
      | cons u L ih =>
        intro hL
        have hu := hL u List.mem_cons_self
        have ih := ih fun w hw => hL w (List.mem_cons_of_mem _ hw)
        obtain ⟨n1, n2⟩ := hne u hu
        have wu := hX u hu
        rw [List.map_cons, List.sum_cons, ← ih]
        by_cases k : Xe ε (lo u) < t ∧ t < Xe ε (hi u)
        · rw [List.filter_cons_of_pos (by rw [decide_eq_true_iff]; exact k), List.map_cons, List.sum_cons]
          congr 1
          unfold sg
          rcases up u hu with ⟨e0, e1, e2⟩ | ⟨e0, e1, e2⟩ <;> rw [e1, e2] at k <;> rw [e0]
          · rw [if_pos k.2, if_neg k.1.asymm]; simp
          · rw [if_neg k.1.asymm, if_pos k.2]; simp
        · rw [List.filter_cons_of_neg (by rw [decide_eq_true_iff]; exact k)]
          have : (if t < Xe ε u.end then (1 : ℚ) else 0) - (if t < Xe ε u.start then 1 else 0) = 0 := by
            rcases up u hu with ⟨e0, e1, e2⟩ | ⟨e0, e1, e2⟩ <;> rw [e1, e2] at k wu
            · by_cases z : t < Xe ε u.start
              · rw [if_pos z, if_pos (by linarith)]; ring
              · rw [if_neg z, if_neg (fun g => k ⟨lt_of_le_of_ne (not_lt.mp z) n1, g⟩)]; ring
            · by_cases z : t < Xe ε u.end
              · rw [if_pos z, if_pos (by linarith)]; ring
              · rw [if_neg z, if_neg (fun g => k ⟨lt_of_le_of_ne (not_lt.mp z) n2, g⟩)]; ring
          rw [this, zero_add]
    exact filt S fun u hu => hu
  have lne : l ≠ [] := by
    intro z
    have no : ∀ s ∈ S, ¬ (Xe ε (lo s) < t ∧ t < Xe ε (hi s)) := by
      intro s hs k
      have := (ml s).mpr ⟨hs, k⟩
      rw [z] at this; exact absurd this List.not_mem_nil
    have con := contour_connected (P := fun p => Xe ε p < t) (vs := vs) fun s hs => by
      have n := no s hs
      obtain ⟨n1, n2⟩ := hne s hs
      have w := hX s hs
      rcases up s hs with ⟨e0, e1, e2⟩ | ⟨e0, e1, e2⟩ <;> rw [e1, e2] at n w
      · constructor
        · intro k; by_contra g; exact n ⟨k, lt_of_le_of_ne (not_lt.mp g) n2.symm⟩
        · intro k; linarith
      · constructor
        · intro k; linarith
        · intro k; by_contra g; exact n ⟨k, lt_of_le_of_ne (not_lt.mp g) n1.symm⟩
    obtain ⟨u, hu, u1⟩ := h1
    obtain ⟨v, hv, v1⟩ := h2
    have := (con u hu v hv).mp u1
    linarith
  -- sort by height
  let l' := l.mergeSort (fun s u => decide (ht ε s t ≤ ht ε u t))
  have pl : l'.Perm l := List.mergeSort_perm _ _
  have sl : l'.Pairwise fun s u => decide (ht ε s t ≤ ht ε u t) = true := by
    apply List.pairwise_mergeSort
    · intro a b c h h'; rw [decide_eq_true_iff] at *; linarith
    · intro a b; rw [Bool.or_eq_true, decide_eq_true_iff, decide_eq_true_iff]; exact le_total _ _
  have nl : l'.Nodup := pl.nodup_iff.mpr ((contour_nodup hn).filter _)
  have pw : l'.Pairwise fun s u => ht ε s t < ht ε u t := by
    refine (sl.and nl).imp_of_mem ?_
    intro a b ha hb ⟨k1, k2⟩
    rw [decide_eq_true_iff] at k1
    obtain ⟨a0, a1, a2⟩ := (ml a).mp (pl.mem_iff.mp ha)
    obtain ⟨b0, b1, b2⟩ := (ml b).mp (pl.mem_iff.mp hb)
    exact lt_of_le_of_ne k1 (ht_distinct hf hg a0 b0 k2 a1 a2 b1 b2)
  obtain ⟨r1, r2⟩ := alternating (fun s => ht ε s t) (decide ((⟨vs⟩ : Contour).orientation = .counterclockwise)) l'.length l' le_rfl pw
    (fun s hs => by rw [xorSum_perm pl]; exact alt s (pl.mem_iff.mp hs)) (by rw [sum_perm pl]; exact zero)
    (by intro z; rw [z] at pl; exact lne pl.symm.eq_nil)
  rw [sum_perm pl] at r1 r2
  refine ⟨fun z => r1 (decide_eq_true z), fun z => r2 (decide_eq_false ?_)⟩
  rw [z]; simp

/-! ### All the slabs -/

/-- The sum of the primitives with the abscissa clamped to each edge. -/
def clampSum (ε : ℚ) (l : List Segment) (t : ℚ) : ℚ :=
  (l.map fun s => sg s * prim ε s (max (Xe ε (lo s)) (min (Xe ε (hi s)) t))).sum

omit hf hg in
theorem clampSum_slab {l : List Segment} {a b : ℚ} (hab : a < b) (hX : ∀ s ∈ l, Xe ε (lo s) < Xe ε (hi s))
    (h : ∀ s ∈ l, (Xe ε (lo s) ≤ a ∨ b ≤ Xe ε (lo s)) ∧ (Xe ε (hi s) ≤ a ∨ b ≤ Xe ε (hi s))) :
    clampSum ε l b - clampSum ε l a = 2 * (b - a) * ((l.filter fun s => decide (Xe ε (lo s) < (a + b) / 2 ∧
      (a + b) / 2 < Xe ε (hi s))).map fun s => sg s * ht ε s ((a + b) / 2)).sum := by
  induction l with
  | nil => simp [clampSum]
  | cons s l ih =>
    have ih := ih (fun u hu => hX u (List.mem_cons_of_mem _ hu)) (fun u hu => h u (List.mem_cons_of_mem _ hu))
    have hs := h s List.mem_cons_self
    have w := hX s List.mem_cons_self
    unfold clampSum at ih ⊢
    simp only [List.map_cons, List.sum_cons]
    by_cases k : Xe ε (lo s) < (a + b) / 2 ∧ (a + b) / 2 < Xe ε (hi s)
    · have k1 : Xe ε (lo s) ≤ a := by rcases hs.1 with z | z <;> [exact z; linarith]
      have k2 : b ≤ Xe ε (hi s) := by rcases hs.2 with z | z <;> [linarith; exact z]
      rw [List.filter_cons_of_pos (by rw [decide_eq_true_iff]; exact k), List.map_cons, List.sum_cons]
      have m1 : max (Xe ε (lo s)) (min (Xe ε (hi s)) b) = b := by rw [min_eq_right k2, max_eq_right (by linarith)]
      have m2 : max (Xe ε (lo s)) (min (Xe ε (hi s)) a) = a := by rw [min_eq_right (by linarith), max_eq_right k1]
      rw [m1, m2]
      have := prim_sub (ε := ε) s a b
      linear_combination ih + sg s * this
    · rw [List.filter_cons_of_neg (by rw [decide_eq_true_iff]; exact k)]
      have m : max (Xe ε (lo s)) (min (Xe ε (hi s)) b) = max (Xe ε (lo s)) (min (Xe ε (hi s)) a) := by
        rcases hs.1 with z | z
        · rcases hs.2 with y | y
          · rw [min_eq_left y, min_eq_left (by linarith)]
          · exact absurd ⟨by linarith, by linarith⟩ k
        · rw [max_eq_left (le_trans (min_le_right _ _) z), max_eq_left (le_trans (min_le_right _ _) (by linarith))]
      rw [m]
      linear_combination ih

include h3 hn in
theorem clampSum_mono : ∀ (n : ℕ) (a b : ℚ), ((vs.map (Xe ε)).filter fun t => decide (a < t ∧ t < b)).length ≤ n →
    a ∈ vs.map (Xe ε) → b ∈ vs.map (Xe ε) → a < b →
    ((⟨vs⟩ : Contour).orientation = .counterclockwise →
      clampSum ε (toContourSegments vs) b < clampSum ε (toContourSegments vs) a) ∧
    ((⟨vs⟩ : Contour).orientation = .clockwise →
      clampSum ε (toContourSegments vs) a < clampSum ε (toContourSegments vs) b) := by
  have slab : ∀ a b : ℚ, (∀ t ∈ vs.map (Xe ε), ¬ (a < t ∧ t < b)) →
      a ∈ vs.map (Xe ε) → b ∈ vs.map (Xe ε) → a < b →
      ((⟨vs⟩ : Contour).orientation = .counterclockwise →
        clampSum ε (toContourSegments vs) b < clampSum ε (toContourSegments vs) a) ∧
      ((⟨vs⟩ : Contour).orientation = .clockwise →
        clampSum ε (toContourSegments vs) a < clampSum ε (toContourSegments vs) b) := by
    intro a b hno ha hb hab
    have gap : ∀ v ∈ vs, Xe ε v ≤ a ∨ b ≤ Xe ε v := by
      intro v hv
      by_contra k
      push Not at k
      exact hno _ (List.mem_map_of_mem hv) k
    obtain ⟨u, hu, eu⟩ := List.mem_map.mp ha
    obtain ⟨v, hv, ev⟩ := List.mem_map.mp hb
    have key := clampSum_slab (ε := ε) (l := toContourSegments vs) hab (fun s hs => contour_Xe hg hf hs)
      fun s hs => ⟨gap _ (lo_hi_mem hs).1, gap _ (lo_hi_mem hs).2⟩
    obtain ⟨s1, s2⟩ := slab_sign h3 hn hf hg (t := (a + b) / 2)
      (fun v hv k => by rcases gap v hv with z | z <;> linarith) ⟨u, hu, by linarith⟩ ⟨v, hv, by linarith⟩
    constructor
    · intro o
      have := mul_neg_of_pos_of_neg (by linarith : 0 < 2 * (b - a)) (s1 o)
      linarith
    · intro o
      have := mul_pos (by linarith : 0 < 2 * (b - a)) (s2 o)
      linarith
  intro n
  induction n with
  | zero =>
    intro a b hl ha hb hab
    refine slab a b (fun t ht' k => ?_) ha hb hab
    have e := List.eq_nil_of_length_eq_zero (Nat.le_zero.mp hl)
    have : t ∈ (vs.map (Xe ε)).filter fun t => decide (a < t ∧ t < b) := List.mem_filter.mpr ⟨ht', decide_eq_true k⟩
    rw [e] at this; exact absurd this List.not_mem_nil
  | succ n ih =>
    intro a b hl ha hb hab
    by_cases hno : ∀ t ∈ vs.map (Xe ε), ¬ (a < t ∧ t < b)
    · exact slab a b hno ha hb hab
    push Not at hno
    obtain ⟨t, ht', t1, t2⟩ := hno
    have fewer : ∀ c d : ℚ, a ≤ c → d ≤ b → (t ≤ c ∨ d ≤ t) →
        ((vs.map (Xe ε)).filter fun t => decide (c < t ∧ t < d)).length ≤ n := by
      intro c d hc hd h
      have : ((vs.map (Xe ε)).filter fun t => decide (c < t ∧ t < d)).length <
          ((vs.map (Xe ε)).filter fun t => decide (a < t ∧ t < b)).length := by
        have e : (vs.map (Xe ε)).filter (fun t => decide (c < t ∧ t < d)) =
            ((vs.map (Xe ε)).filter fun t => decide (a < t ∧ t < b)).filter fun t => decide (c < t ∧ t < d) := by
          rw [List.filter_filter]
          apply List.filter_congr
          intro x _
          rw [Bool.eq_iff_iff, Bool.and_eq_true, decide_eq_true_iff, decide_eq_true_iff]
          constructor
          · rintro ⟨k1, k2⟩; exact ⟨⟨k1, k2⟩, by linarith, by linarith⟩
          · exact fun k => k.1
        rw [e]
        refine lt_of_le_of_ne (List.length_filter_le _ _) fun k => ?_
        have := List.length_filter_eq_length_iff.mp k t (List.mem_filter.mpr ⟨ht', decide_eq_true ⟨t1, t2⟩⟩)
        rw [decide_eq_true_iff] at this
        rcases h with h | h <;> linarith [this.1, this.2]
      omega
    obtain ⟨p1, p2⟩ := ih a t (fewer a t le_rfl t2.le (Or.inr le_rfl)) ha ht' t1
    obtain ⟨q1, q2⟩ := ih t b (fewer t b t1.le le_rfl (Or.inl le_rfl)) ht' hb t2
    exact ⟨fun o => (q1 o).trans (p1 o), fun o => (p2 o).trans (q2 o)⟩

end

/-- The orientation of a simple contour is the sign of the doubled signed area. -/
theorem area_sign {vs : List Point} (h3 : 3 ≤ vs.length) (hn : vs.Nodup) (hf : FullyNoded (toContourSegments vs)) :
    let area := ((toContourSegments vs).map fun s => s.start.x * s.end.y - s.end.x * s.start.y).sum
    ((⟨vs⟩ : Contour).orientation = .counterclockwise → 0 < area) ∧ ((⟨vs⟩ : Contour).orientation = .clockwise → area < 0) := by
  intro area
  obtain ⟨ε, hg⟩ := exists_gen vs.toFinset
  have hg : Gen ε (· ∈ vs) := fun u hu v hv => hg u (List.mem_toFinset.mpr hu) v (List.mem_toFinset.mpr hv)
  have hne : vs ≠ [] := by intro z; rw [z] at h3; simp at h3
  obtain ⟨u, hu, hmin⟩ := Finset.exists_min_image vs.toFinset (Xe ε) (List.toFinset_nonempty_iff _ |>.mpr hne)
  obtain ⟨v, hv, hmax⟩ := Finset.exists_max_image vs.toFinset (Xe ε) (List.toFinset_nonempty_iff _ |>.mpr hne)
  simp only [List.mem_toFinset] at hu hv hmin hmax
  have hX : ∀ s ∈ toContourSegments vs, Xe ε (lo s) < Xe ε (hi s) := fun s hs => contour_Xe hg hf hs
  have huv : Xe ε u < Xe ε v := by
    cases hvs : vs with
    | nil => exact absurd hvs hne
    | cons a l =>
      have hs : segAt (toContourSegments vs) 0 ∈ toContourSegments vs := by
        apply segAt_mem
        rw [hvs, toContourSegments]; simp
      have := hX _ hs
      have k1 := hmin _ (lo_hi_mem hs).1
      have k2 := hmax _ (lo_hi_mem hs).2
      linarith
  have up : ∀ s ∈ toContourSegments vs, (goesUp s = true ∧ lo s = s.start ∧ hi s = s.end) ∨
      (goesUp s = false ∧ lo s = s.end ∧ hi s = s.start) := by
    intro s hs
    have hd := hf.1 s hs
    rcases lo_hi s with ⟨e1, e2, k⟩ | ⟨e1, e2, k⟩
    · left; exact ⟨(goesUp_iff hd).mpr k, e1, e2⟩
    · right
      refine ⟨?_, e1, e2⟩
      rw [Bool.eq_false_iff]
      intro z
      exact absurd ((goesUp_iff hd).mp z) k
  have key : area = clampSum ε (toContourSegments vs) (Xe ε u) - clampSum ε (toContourSegments vs) (Xe ε v) := by
    have := contour_sum (fun p => Xe ε p * p.y) vs
    have gen : ∀ l : List Segment, (∀ s ∈ l, s ∈ toContourSegments vs) →
        (l.map fun s => s.start.x * s.end.y - s.end.x * s.start.y).sum =
        clampSum ε l (Xe ε u) - clampSum ε l (Xe ε v) + (l.map fun s => Xe ε s.end * s.end.y - Xe ε s.start * s.start.y).sum := by
      intro l
      induction l with
      | nil => intro _; simp [clampSum]
      | cons s l ih =>
        intro hl
        have hs := hl s List.mem_cons_self
        have ih := ih fun w hw => hl w (List.mem_cons_of_mem _ hw)
        unfold clampSum at ih ⊢
        simp only [List.map_cons, List.sum_cons]
        have w := hX s hs
        have l1 := hmin _ (lo_hi_mem hs).1
        have l2 := hmin _ (lo_hi_mem hs).2
        have l3 := hmax _ (lo_hi_mem hs).1
        have l4 := hmax _ (lo_hi_mem hs).2
        have m1 : max (Xe ε (lo s)) (min (Xe ε (hi s)) (Xe ε u)) = Xe ε (lo s) := by rw [min_eq_right l2, max_eq_left l1]
        have m2 : max (Xe ε (lo s)) (min (Xe ε (hi s)) (Xe ε v)) = Xe ε (hi s) := by
          rw [min_eq_left l4, max_eq_right w.le]
        rw [m1, m2]
        have e := prim_edge w
        have one : s.start.x * s.end.y - s.end.x * s.start.y = sg s * prim ε s (Xe ε (lo s)) - sg s * prim ε s (Xe ε (hi s)) +
            (Xe ε s.end * s.end.y - Xe ε s.start * s.start.y) := by
          have : sg s * prim ε s (Xe ε (lo s)) - sg s * prim ε s (Xe ε (hi s)) =
              - sg s * ((Xe ε (hi s) - Xe ε (lo s)) * ((lo s).y + (hi s).y)) := by rw [← e]; ring
          rw [this]
          unfold sg Xe
          rcases up s hs with ⟨e0, e1, e2⟩ | ⟨e0, e1, e2⟩ <;> rw [e0, e1, e2]
          · simp only [if_true]; ring
          · simp only [Bool.false_eq_true, if_false]; ring
        linear_combination ih + one
    have := gen _ fun s hs => hs
    rw [contour_sum (fun p => Xe ε p * p.y) vs, add_zero] at this
    exact this
  obtain ⟨r1, r2⟩ := clampSum_mono h3 hn hf hg _ (Xe ε u) (Xe ε v) le_rfl (List.mem_map_of_mem hu) (List.mem_map_of_mem hv) huv
  rw [key]
  exact ⟨fun o => by have := r1 o; linarith, fun o => by have := r2 o; linarith⟩

end Rene.Sweep
