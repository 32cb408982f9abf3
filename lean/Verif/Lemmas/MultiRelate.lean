import Verif.Lemmas.ContourRelate

/-! The scan of `relate_to_multisegment_segments`. -/

namespace Rene
open Spec

/-- Membership in a segment on the line `AB`. -/
theorem mem_sub {A B u v p : Point} (hAB : A < B) (huv : u < v) (hu : cr A B u = 0) (hv : cr A B v = 0) :
    p ∈ seg u v ↔ cr A B p = 0 ∧ u ≤ p ∧ p ≤ v := by
  rw [mem_seg_iff_of_le huv.le]
  have h := collinear_symm hAB.ne hu hv
  constructor
  · rintro ⟨h1, h2⟩
    exact ⟨cr_trans huv.ne h.1 h.2 h1, h2⟩
  · rintro ⟨h1, h2⟩
    exact ⟨cr_trans hAB.ne hu hv h1, h2⟩

/-- Between two points of a line there is one which is not on finitely many segments that do not overlap the
line there. -/
theorem exists_gap {A B : Point} (hAB : A < B) : ∀ (L : List Segment) (g h : Point), g < h → cr A B g = 0 →
    cr A B h = 0 → (∀ c ∈ L, AtMostOne (seg g h ∩ segPts c)) →
    ∃ p, cr A B p = 0 ∧ g < p ∧ p < h ∧ ∀ c ∈ L, p ∉ segPts c := by
  intro L
  induction L with
  | nil =>
    intro g h hgh hg hh _
    obtain ⟨m, h1, h2, h3⟩ := exists_between_pts hgh
    have h' := collinear_symm hAB.ne hg hh
    exact ⟨m, cr_trans hgh.ne h'.1 h'.2 h1, h2, h3, by simp⟩
  | cons c L ih =>
    intro g h hgh hg hh hone
    by_cases hq : ∃ q, cr A B q = 0 ∧ g < q ∧ q < h ∧ q ∈ segPts c
    · obtain ⟨q, hql, hgq, hqh, hqc⟩ := hq
      have hsub : seg g q ⊆ seg g h := by
        intro x hx
        rw [mem_sub hAB hgq hg hql] at hx
        rw [mem_sub hAB hgh hg hh]
        exact ⟨hx.1, hx.2.1, hx.2.2.trans hqh.le⟩
      obtain ⟨p, h1, h2, h3, h4⟩ := ih g q hgq hg hql (fun c' hc' x hx y hy =>
        hone c' (List.mem_cons_of_mem _ hc') x ⟨hsub hx.1, hx.2⟩ y ⟨hsub hy.1, hy.2⟩)
      refine ⟨p, h1, h2, h3.trans hqh, ?_⟩
      intro c' hc'
      rcases List.mem_cons.mp hc' with rfl | hc'
      · intro hpc
        refine h3.ne (hone c' (by simp) p ⟨?_, hpc⟩ q ⟨?_, hqc⟩)
        · rw [mem_sub hAB hgh hg hh]; exact ⟨h1, h2.le, (h3.trans hqh).le⟩
        · rw [mem_sub hAB hgh hg hh]; exact ⟨hql, hgq.le, hqh.le⟩
      · exact h4 c' hc'
    · obtain ⟨p, h1, h2, h3, h4⟩ := ih g h hgh hg hh (fun c' hc' => hone c' (List.mem_cons_of_mem _ hc'))
      refine ⟨p, h1, h2, h3, ?_⟩
      intro c' hc'
      rcases List.mem_cons.mp hc' with rfl | hc'
      · exact fun hpc => hq ⟨p, h1, h2, h3, hpc⟩
      · exact h4 c' hc'

/-- What the variables `start`, `end` and `components` mean after the components `pre` of the multisegment: the
parts of the segment `AB` which are covered by overlapping components. -/
structure Cover (A B : Point) (pre : List Segment) (s e : Point) (cs : List (Point × Point)) : Prop where
  ls : cr A B s = 0
  le : cr A B e = 0
  as : A ≤ s
  se : s ≤ e
  eb : e ≤ B
  comp : ∀ c ∈ cs, c.1 < c.2 ∧ cr A B c.1 = 0 ∧ cr A B c.2 = 0 ∧ s ≤ c.1 ∧ c.2 ≤ e
  apart : cs.Pairwise fun c d => c.2 ≤ d.1 ∨ d.2 ≤ c.1
  cov : ∀ p, cr A B p = 0 → A ≤ p → p ≤ B →
    ((∃ c ∈ pre, ¬ AtMostOne (seg A B ∩ segPts c) ∧ p ∈ segPts c) ↔
      (A < s ∧ p ≤ s) ∨ (e < B ∧ e ≤ p) ∨ ∃ c ∈ cs, c.1 ≤ p ∧ p ≤ c.2)

section
variable {A B : Point} {pre : List Segment} {s e : Point} {cs : List (Point × Point)}

/-- Inside of a new piece there is an uncovered point. -/
theorem Cover.gap (h : Cover A B pre s e cs) (hAB : A < B) {u v : Point} (hu : cr A B u = 0)
    (hv : cr A B v = 0) (huv : u < v) (hone : ∀ c ∈ pre, AtMostOne (seg u v ∩ segPts c))
    {g k : Point} (hg : cr A B g = 0) (hk : cr A B k = 0) (hgk : g < k) (hug : u ≤ g) (hkv : k ≤ v)
    (hAg : A ≤ g) (hkB : k ≤ B) :
    ∃ p, cr A B p = 0 ∧ g < p ∧ p < k ∧ ¬ (A < s ∧ p ≤ s) ∧ ¬ (e < B ∧ e ≤ p) ∧ ∀ c ∈ cs, ¬ (c.1 ≤ p ∧ p ≤ c.2) := by
  have hsub : seg g k ⊆ seg u v := by
    intro x hx
    rw [mem_sub hAB hgk hg hk] at hx
    rw [mem_sub hAB huv hu hv]
    exact ⟨hx.1, hug.trans hx.2.1, hx.2.2.trans hkv⟩
  obtain ⟨p, h1, h2, h3, h4⟩ := exists_gap hAB pre g k hgk hg hk
    (fun c hc x hx y hy => hone c hc x ⟨hsub hx.1, hx.2⟩ y ⟨hsub hy.1, hy.2⟩)
  have := h.cov p h1 (hAg.trans h2.le) (h3.le.trans hkB)
  have hn : ¬ ∃ c ∈ pre, ¬ AtMostOne (seg A B ∩ segPts c) ∧ p ∈ segPts c := fun ⟨c, hc, _, hp⟩ => h4 c hc hp
  rw [this] at hn
  push Not at hn
  refine ⟨p, h1, h2, h3, fun h => absurd h.2 (not_le.mpr (hn.1 h.1)), fun h => absurd h.2 (not_le.mpr (hn.2.1 h.1)),
    fun c hc h => absurd h.2 (not_le.mpr (hn.2.2 c hc h.1))⟩

/-- A new piece is between the covered ends and apart from the other pieces. -/
theorem Cover.place (h : Cover A B pre s e cs) (hAB : A < B) {u v : Point} (hu : cr A B u = 0)
    (hv : cr A B v = 0) (huv : u < v) (hone : ∀ c ∈ pre, AtMostOne (seg u v ∩ segPts c)) :
    (A < s → u < B → A < v → s ≤ u ∨ v ≤ A) ∧ (e < B → u < B → A < v → v ≤ e ∨ B ≤ u) ∧
      (∀ c ∈ cs, c.2 ≤ u ∨ v ≤ c.1) := by
  have hA : cr A B A = 0 := cr_self1 A B
  have hB : cr A B B = 0 := cr_self2 A B
  have hmax : ∀ {x y : Point}, cr A B x = 0 → cr A B y = 0 → cr A B (max x y) = 0 := by
    intro x y hx hy; rcases max_choice x y with h | h <;> rw [h] <;> assumption
  have hmin : ∀ {x y : Point}, cr A B x = 0 → cr A B y = 0 → cr A B (min x y) = 0 := by
    intro x y hx hy; rcases min_choice x y with h | h <;> rw [h] <;> assumption
  have hsB := h.se.trans h.eb
  have hAe := h.as.trans h.se
  refine ⟨?_, ?_, ?_⟩
  · intro hs huB hAv
    by_contra hn
    push Not at hn
    obtain ⟨p, -, h1, h2, h3, -⟩ := h.gap hAB hu hv huv hone (g := max u A) (k := min v s) (hmax hu hA) (hmin hv h.ls)
      (by simp [huv, hs, hn]) (le_max_left _ _) (min_le_left _ _) (le_max_right _ _) ((min_le_right _ _).trans hsB)
    exact h3 ⟨hs, (h2.le.trans (min_le_right _ _))⟩
  · intro he huB hAv
    by_contra hn
    push Not at hn
    obtain ⟨p, -, h1, h2, -, h3, -⟩ := h.gap hAB hu hv huv hone (g := max u e) (k := min v B) (hmax hu h.le) (hmin hv hB)
      (by simp [huv, he, hn]) (le_max_left _ _) (min_le_left _ _) (hAe.trans (le_max_right _ _)) (min_le_right _ _)
    exact h3 ⟨he, (le_max_right _ _).trans h1.le⟩
  · intro c hc
    obtain ⟨hc1, hc2, hc3, hc4, hc5⟩ := h.comp c hc
    by_contra hn
    push Not at hn
    obtain ⟨p, -, h1, h2, -, -, h3⟩ := h.gap hAB hu hv huv hone (g := max u c.1) (k := min v c.2) (hmax hu hc2)
      (hmin hv hc3) (by simp [huv, hc1, hn]) (le_max_left _ _) (min_le_left _ _)
      (h.as.trans (hc4.trans (le_max_right _ _))) ((min_le_right _ _).trans (hc5.trans h.eb))
    exact h3 c hc ⟨(le_max_right _ _).trans h1.le, h2.le.trans (min_le_right _ _)⟩

/-- Adding a component without overlap. -/
theorem Cover.skip (h : Cover A B pre s e cs) {x : Segment} (hx : AtMostOne (seg A B ∩ segPts x)) :
    Cover A B (pre ++ [x]) s e cs := by
  refine ⟨h.ls, h.le, h.as, h.se, h.eb, h.comp, h.apart, fun p h1 h2 h3 => ?_⟩
  rw [← h.cov p h1 h2 h3]
  simp only [List.mem_append, List.mem_singleton]
  constructor
  · rintro ⟨c, hc | rfl, h4, h5⟩
    · exact ⟨c, hc, h4, h5⟩
    · exact absurd hx h4
  · rintro ⟨c, hc, h4⟩
    exact ⟨c, Or.inl hc, h4⟩

theorem cov_add {x : Segment} {p : Point} (hx : ¬ AtMostOne (seg A B ∩ segPts x)) :
    (∃ c ∈ pre ++ [x], ¬ AtMostOne (seg A B ∩ segPts c) ∧ p ∈ segPts c) ↔
      (∃ c ∈ pre, ¬ AtMostOne (seg A B ∩ segPts c) ∧ p ∈ segPts c) ∨ p ∈ segPts x := by
  simp only [List.mem_append, List.mem_singleton]
  constructor
  · rintro ⟨c, hc | rfl, h4, h5⟩
    · exact Or.inl ⟨c, hc, h4, h5⟩
    · exact Or.inr h5
  · rintro (⟨c, hc, h4⟩ | h)
    · exact ⟨c, Or.inl hc, h4⟩
    · exact ⟨x, Or.inr rfl, hx, h⟩

/-- Adding a part of the segment. -/
theorem Cover.composite (h : Cover A B pre s e cs) (hAB : A < B) {x : Segment} {u v : Point} (hx : segPts x = seg u v)
    (hu : cr A B u = 0) (hv : cr A B v = 0) (huv : u < v) (hAu : A ≤ u) (hvB : v ≤ B)
    (hone : ∀ c ∈ pre, AtMostOne (seg u v ∩ segPts c)) :
    s ≤ u ∧ v ≤ e ∧ (s = u → Cover A B (pre ++ [x]) v e cs) ∧ (e = v → Cover A B (pre ++ [x]) s u cs) ∧
      Cover A B (pre ++ [x]) s e (cs ++ [(u, v)]) := by
  obtain ⟨p1, p2, p3⟩ := h.place hAB hu hv huv hone
  have hAv : A < v := hAu.trans_lt huv
  have huB : u < B := huv.trans_le hvB
  have hsu : s ≤ u := by
    rcases h.as.eq_or_lt with h' | h'
    · rw [← h']; exact hAu
    · rcases p1 h' huB hAv with h' | h'
      · exact h'
      · exact absurd hAv (not_lt.mpr h')
  have hve : v ≤ e := by
    rcases h.eb.eq_or_lt with h' | h'
    · rw [h']; exact hvB
    · rcases p2 h' huB hAv with h' | h'
      · exact h'
      · exact absurd huB (not_lt.mpr h')
  have hx' : ¬ AtMostOne (seg A B ∩ segPts x) := by
    rw [hx]; exact (not_atMostOne_collinear hAB huv hu hv).mpr ⟨hAv, huB⟩
  have hcomp := h.comp
  refine ⟨hsu, hve, ?_, ?_, ?_⟩
  · rintro rfl
    refine ⟨hv, h.le, hAv.le, hve, h.eb, fun c hc => ?_, h.apart, fun p q1 q2 q3 => ?_⟩
    · obtain ⟨hc1, hc2, hc3, hc4, hc5⟩ := hcomp c hc
      refine ⟨hc1, hc2, hc3, ?_, hc5⟩
      rcases p3 c hc with h' | h'
      · exact absurd (hc4.trans_lt hc1) (not_lt.mpr h')
      · exact h'
    · rw [cov_add hx', h.cov p q1 q2 q3, hx, mem_sub hAB huv hu hv]
      clear hone hcomp p1 p2 p3 hx hx' h
      grind
  · rintro rfl
    refine ⟨h.ls, hu, h.as, hsu, huB.le, fun c hc => ?_, h.apart, fun p q1 q2 q3 => ?_⟩
    · obtain ⟨hc1, hc2, hc3, hc4, hc5⟩ := hcomp c hc
      refine ⟨hc1, hc2, hc3, hc4, ?_⟩
      rcases p3 c hc with h' | h'
      · exact h'
      · exact absurd (hc1.trans_le hc5) (not_lt.mpr h')
    · rw [cov_add hx', h.cov p q1 q2 q3, hx, mem_sub hAB huv hu hv]
      clear hone hcomp p1 p2 p3 hx hx' h
      grind
  · refine ⟨h.ls, h.le, h.as, h.se, h.eb, fun c hc => ?_, ?_, fun p q1 q2 q3 => ?_⟩
    · rcases List.mem_append.mp hc with hc | hc
      · exact hcomp c hc
      · rw [List.mem_singleton.mp hc]
        exact ⟨huv, hu, hv, hsu, hve⟩
    · rw [List.pairwise_append]
      refine ⟨h.apart, by simp, fun c hc d hd => ?_⟩
      rw [List.mem_singleton.mp hd]
      exact p3 c hc
    · rw [cov_add hx', h.cov p q1 q2 q3, hx, mem_sub hAB huv hu hv]
      simp only [List.mem_append, List.mem_singleton]
      constructor
      · rintro ((h' | h' | ⟨c, hc, h'⟩) | h')
        · exact Or.inl h'
        · exact Or.inr (Or.inl h')
        · exact Or.inr (Or.inr ⟨c, Or.inl hc, h'⟩)
        · exact Or.inr (Or.inr ⟨(u, v), Or.inr rfl, h'.2⟩)
      · rintro (h' | h' | ⟨c, hc | rfl, h'⟩)
        · exact Or.inl (Or.inl h')
        · exact Or.inl (Or.inr (Or.inl h'))
        · exact Or.inl (Or.inr (Or.inr ⟨c, hc, h'⟩))
        · exact Or.inr ⟨q1, h'⟩

/-- Adding an overlapping component. -/
theorem Cover.overlap (h : Cover A B pre s e cs) (hAB : A < B) {x : Segment} {u v : Point} (hx : segPts x = seg u v)
    (hu : cr A B u = 0) (hv : cr A B v = 0) (huv : u < v)
    (hone : ∀ c ∈ pre, AtMostOne (seg u v ∩ segPts c)) :
    (u < A → A < v → v < B → s = A ∧ Cover A B (pre ++ [x]) v e cs) ∧
    (A < u → u < B → B < v → s ≤ u ∧ Cover A B (pre ++ [x]) s u cs) := by
  obtain ⟨p1, p2, p3⟩ := h.place hAB hu hv huv hone
  have hcomp := h.comp
  constructor
  · intro huA hAv hvB
    have huB := huA.trans hAB
    have hx' : ¬ AtMostOne (seg A B ∩ segPts x) := by
      rw [hx]; exact (not_atMostOne_collinear hAB huv hu hv).mpr ⟨hAv, huB⟩
    have hs : s = A := by
      by_contra hne
      have hlt : A < s := lt_of_le_of_ne h.as (Ne.symm hne)
      rcases p1 hlt huB hAv with h' | h'
      · exact absurd (hlt.trans_le h') (not_lt.mpr huA.le)
      · exact absurd hAv (not_lt.mpr h')
    have hve : v ≤ e := by
      rcases h.eb.eq_or_lt with h' | h'
      · rw [h']; exact hvB.le
      · rcases p2 h' huB hAv with h' | h'
        · exact h'
        · exact absurd huB (not_lt.mpr h')
    refine ⟨hs, hv, h.le, hAv.le, hve, h.eb, fun c hc => ?_, h.apart, fun p q1 q2 q3 => ?_⟩
    · obtain ⟨hc1, hc2, hc3, hc4, hc5⟩ := hcomp c hc
      refine ⟨hc1, hc2, hc3, ?_, hc5⟩
      rcases p3 c hc with h' | h'
      · exact absurd ((h'.trans_lt huA).trans_le (h.as.trans hc4)) (not_lt.mpr hc1.le)
      · exact h'
    · rw [cov_add hx', h.cov p q1 q2 q3, hx, mem_sub hAB huv hu hv]
      clear hone hcomp p1 p2 p3 hx hx' h
      grind
  · intro hAu huB hBv
    have hAv := hAu.trans huv
    have hx' : ¬ AtMostOne (seg A B ∩ segPts x) := by
      rw [hx]; exact (not_atMostOne_collinear hAB huv hu hv).mpr ⟨hAv, huB⟩
    have he : e = B := by
      by_contra hne
      have hlt : e < B := lt_of_le_of_ne h.eb hne
      rcases p2 hlt huB hAv with h' | h'
      · exact absurd (h'.trans_lt hlt) (not_lt.mpr hBv.le)
      · exact absurd huB (not_lt.mpr h')
    have hsu : s ≤ u := by
      rcases h.as.eq_or_lt with h' | h'
      · rw [← h']; exact hAu.le
      · rcases p1 h' huB hAv with h' | h'
        · exact h'
        · exact absurd hAv (not_lt.mpr h')
    refine ⟨hsu, h.ls, hu, h.as, hsu, huB.le, fun c hc => ?_, h.apart, fun p q1 q2 q3 => ?_⟩
    · obtain ⟨hc1, hc2, hc3, hc4, hc5⟩ := hcomp c hc
      refine ⟨hc1, hc2, hc3, hc4, ?_⟩
      rcases p3 c hc with h' | h'
      · exact h'
      · exact absurd ((hBv.trans_le h').trans hc1) (not_lt.mpr (hc5.trans h.eb))
    · rw [cov_add hx', h.cov p q1 q2 q3, hx, mem_sub hAB huv hu hv]
      clear hone hcomp p1 p2 p3 hx hx' h
      grind

theorem foldl_min (rest : List (Point × Point)) (m : Point) :
    let r := rest.foldl (fun m c => if c.1.ltB m then c.1 else m) m
    (r = m ∨ ∃ c ∈ rest, r = c.1) ∧ r ≤ m ∧ ∀ c ∈ rest, r ≤ c.1 := by
  induction rest generalizing m with
  | nil => simp
  | cons c rest ih =>
    simp only [List.foldl_cons]
    obtain ⟨h1, h2, h3⟩ := ih (if c.1.ltB m then c.1 else m)
    simp only [Point.ltB_iff] at h1 h2 h3 ⊢
    by_cases h : c.1 < m
    · simp only [h, if_true] at h1 h2 h3 ⊢
      refine ⟨?_, h2.trans h.le, ?_⟩
      · rcases h1 with h1 | ⟨d, hd, h1⟩
        · exact Or.inr ⟨c, by simp, h1⟩
        · exact Or.inr ⟨d, by simp [hd], h1⟩
      · intro d hd
        rcases List.mem_cons.mp hd with rfl | hd
        · exact h2
        · exact h3 d hd
    · simp only [h, if_false] at h1 h2 h3 ⊢
      refine ⟨?_, h2, ?_⟩
      · rcases h1 with h1 | ⟨d, hd, h1⟩
        · exact Or.inl h1
        · exact Or.inr ⟨d, by simp [hd], h1⟩
      · intro d hd
        rcases List.mem_cons.mp hd with rfl | hd
        · exact h2.trans (not_lt.mp h)
        · exact h3 d hd

theorem foldl_max (rest : List (Point × Point)) (m : Point) :
    let r := rest.foldl (fun m c => if m.ltB c.2 then c.2 else m) m
    (r = m ∨ ∃ c ∈ rest, r = c.2) ∧ m ≤ r ∧ ∀ c ∈ rest, c.2 ≤ r := by
  induction rest generalizing m with
  | nil => simp
  | cons c rest ih =>
    simp only [List.foldl_cons]
    obtain ⟨h1, h2, h3⟩ := ih (if m.ltB c.2 then c.2 else m)
    simp only [Point.ltB_iff] at h1 h2 h3 ⊢
    by_cases h : m < c.2
    · simp only [h, if_true] at h1 h2 h3 ⊢
      refine ⟨?_, h.le.trans h2, ?_⟩
      · rcases h1 with h1 | ⟨d, hd, h1⟩
        · exact Or.inr ⟨c, by simp, h1⟩
        · exact Or.inr ⟨d, by simp [hd], h1⟩
      · intro d hd
        rcases List.mem_cons.mp hd with rfl | hd
        · exact h2
        · exact h3 d hd
    · simp only [h, if_false] at h1 h2 h3 ⊢
      refine ⟨?_, h2, ?_⟩
      · rcases h1 with h1 | ⟨d, hd, h1⟩
        · exact Or.inl h1
        · exact Or.inr ⟨d, by simp [hd], h1⟩
      · intro d hd
        rcases List.mem_cons.mp hd with rfl | hd
        · exact (not_lt.mp h).trans h2
        · exact h3 d hd

/-- An uncovered piece shows that the segment is not covered. -/
theorem Cover.not_full (h : Cover A B pre s e cs) (hAB : A < B) {g k : Point} (hg : cr A B g = 0) (hk : cr A B k = 0)
    (hgk : g < k) (hAg : A ≤ g) (hkB : k ≤ B) (hsg : s ≤ g) (hke : k ≤ e)
    (hcs : ∀ c ∈ cs, c.2 ≤ g ∨ k ≤ c.1) : ¬ ∀ p ∈ seg A B, p ∈ segsPts pre := by
  intro hall
  have hsub : seg g k ⊆ seg A B := by
    intro x hx
    rw [mem_sub hAB hgk hg hk] at hx
    rw [mem_seg_iff_of_le hAB.le]
    exact ⟨hx.1, hAg.trans hx.2.1, hx.2.2.trans hkB⟩
  classical
  obtain ⟨p, h1, h2, h3, h4⟩ := exists_gap hAB (pre.filter fun c => decide (AtMostOne (seg A B ∩ segPts c))) g k hgk hg hk
    (fun c hc x hx y hy => by
      simp only [List.mem_filter, decide_eq_true_eq] at hc
      exact hc.2 x ⟨hsub hx.1, hx.2⟩ y ⟨hsub hy.1, hy.2⟩)
  have hAp : A ≤ p := hAg.trans h2.le
  have hpB : p ≤ B := h3.le.trans hkB
  obtain ⟨c, hc, hpc⟩ := hall p ((mem_seg_iff_of_le hAB.le).mpr ⟨h1, hAp, hpB⟩)
  by_cases hone : AtMostOne (seg A B ∩ segPts c)
  · exact h4 c (by simp [List.mem_filter, hc, hone]) hpc
  · rcases (h.cov p h1 hAp hpB).mp ⟨c, hc, hone, hpc⟩ with h' | h' | ⟨d, hd, h'⟩
    · exact absurd (hsg.trans_lt h2) (not_lt.mpr h'.2)
    · exact absurd (h3.trans_le hke) (not_lt.mpr h'.2)
    · rcases hcs d hd with h5 | h5
      · exact absurd (h5.trans_lt h2) (not_lt.mpr h'.2)
      · exact absurd (h3.trans_le h5) (not_lt.mpr h'.1)

/-- Without pieces: everything is covered exactly when the covered ends meet. -/
theorem Cover.full_nil (h : Cover A B pre s e []) (hAB : A < B) :
    (∀ p ∈ seg A B, p ∈ segsPts pre) ↔ s = e := by
  constructor
  · intro hall
    by_contra hne
    exact h.not_full hAB h.ls h.le (lt_of_le_of_ne h.se hne) h.as h.eb le_rfl le_rfl (by simp) hall
  · rintro rfl p hp
    rw [mem_seg_iff_of_le hAB.le] at hp
    have : ∃ c ∈ pre, ¬ AtMostOne (seg A B ∩ segPts c) ∧ p ∈ segPts c := by
      rw [h.cov p hp.1 hp.2.1 hp.2.2]
      have h1 := h.as
      have h2 := h.eb
      by_cases h' : A < s
      · rcases le_total p s with h3 | h3
        · exact Or.inl ⟨h', h3⟩
        · by_cases h4 : s < B
          · exact Or.inr (Or.inl ⟨h4, h3⟩)
          · exact Or.inl ⟨h', hp.2.2.trans (not_lt.mp h4)⟩
      · have h3 : s = A := le_antisymm (not_lt.mp h') h1
        exact Or.inr (Or.inl ⟨by rw [h3]; exact hAB, by rw [h3]; exact hp.2.1⟩)
    obtain ⟨c, hc, -, hp⟩ := this
    exact ⟨c, hc, hp⟩

/-- With pieces: the test on the starts and ends of the pieces. -/
theorem Cover.full_cons {f : Point × Point} {rest : List (Point × Point)} (h : Cover A B pre s e (f :: rest)) (hAB : A < B)
    {m M : Point} (hm : m = rest.foldl (fun m c => if c.1.ltB m then c.1 else m) f.1)
    (hM : M = rest.foldl (fun m c => if m.ltB c.2 then c.2 else m) f.2) :
    (∀ p ∈ seg A B, p ∈ segsPts pre) ↔
      m = s ∧ M = e ∧ ∀ c ∈ f :: rest, c.2 ∈ (f :: rest).map Prod.fst ∨ c.2 = M := by
  obtain ⟨m1, m2, m3⟩ := foldl_min rest f.1
  obtain ⟨M1, M2, M3⟩ := foldl_max rest f.2
  rw [← hm] at m1 m2 m3
  rw [← hM] at M1 M2 M3
  have hmem : ∃ c ∈ f :: rest, m = c.1 := by
    rcases m1 with h' | ⟨c, hc, h'⟩
    · exact ⟨f, by simp, h'⟩
    · exact ⟨c, by simp [hc], h'⟩
  have hMem : ∃ c ∈ f :: rest, M = c.2 := by
    rcases M1 with h' | ⟨c, hc, h'⟩
    · exact ⟨f, by simp, h'⟩
    · exact ⟨c, by simp [hc], h'⟩
  have hmle : ∀ c ∈ f :: rest, m ≤ c.1 := by
    intro c hc
    rcases List.mem_cons.mp hc with rfl | hc
    · exact m2
    · exact m3 c hc
  have hMle : ∀ c ∈ f :: rest, c.2 ≤ M := by
    intro c hc
    rcases List.mem_cons.mp hc with rfl | hc
    · exact M2
    · exact M3 c hc
  have hcomp := h.comp
  have hap : ∀ c ∈ f :: rest, ∀ d ∈ f :: rest, c ≠ d → c.2 ≤ d.1 ∨ d.2 ≤ c.1 := by
    have hsym : Std.Symm (fun c d : Point × Point => c.2 ≤ d.1 ∨ d.2 ≤ c.1) := ⟨fun _ _ h => h.symm⟩
    intro c hc d hd hne
    exact List.Pairwise.forall h.apart hc hd hne
  generalize hcs : f :: rest = cs at *
  obtain ⟨cm, hcm, rfl⟩ := hmem
  obtain ⟨cM, hcM, rfl⟩ := hMem
  obtain ⟨a1, a2, a3, a4, a5⟩ := hcomp cm hcm
  obtain ⟨b1, b2, b3, b4, b5⟩ := hcomp cM hcM
  constructor
  · intro hall
    refine ⟨?_, ?_, ?_⟩
    · by_contra hne
      refine h.not_full hAB h.ls a2 (lt_of_le_of_ne a4 (Ne.symm hne)) h.as ?_ le_rfl (a1.le.trans a5) ?_ hall
      · exact a1.le.trans (a5.trans h.eb)
      · intro c hc; exact Or.inr (hmle c hc)
    · by_contra hne
      refine h.not_full hAB b3 h.le (lt_of_le_of_ne b5 hne) ?_ h.eb (b4.trans b1.le) le_rfl ?_ hall
      · exact h.as.trans (b4.trans b1.le)
      · intro c hc; exact Or.inl (hMle c hc)
    · intro c hc
      by_contra hno
      push Not at hno
      obtain ⟨hn1, hn2⟩ := hno
      obtain ⟨c1, c2, c3, c4, c5⟩ := hcomp c hc
      have hlt : c.2 < cM.2 := lt_of_le_of_ne (hMle c hc) hn2
      -- the next start
      have hex : ∃ d ∈ cs, c.2 < d.1 ∧ ∀ d' ∈ cs, c.2 < d'.1 → d.1 ≤ d'.1 := by
        have hfin : (cs.filter fun d => decide (c.2 < d.1)) ≠ [] := by
          intro hnil
          have : cM ∈ cs.filter fun d => decide (c.2 < d.1) := by
            rw [List.mem_filter]
            refine ⟨hcM, ?_⟩
            rw [decide_eq_true_iff]
            have hne : c ≠ cM := by rintro rfl; exact hn2 rfl
            rcases hap c hc cM hcM hne with h' | h'
            · refine lt_of_le_of_ne h' ?_
              intro h''
              exact hn1 (List.mem_map.mpr ⟨cM, hcM, h''.symm⟩)
            · exact absurd (hlt.trans_le h') (not_lt.mpr c1.le)
          rw [hnil] at this; simp at this
        obtain ⟨x, xs, hxs⟩ := List.exists_cons_of_ne_nil hfin
        obtain ⟨n1, n2, n3⟩ := foldl_min xs x.1
        generalize List.foldl (fun m c => if c.1.ltB m then c.1 else m) x.1 xs = r at n1 n2 n3
        have : ∃ d ∈ cs.filter fun d => decide (c.2 < d.1), r = d.1 := by
          rw [hxs]
          rcases n1 with h' | ⟨d, hd, h'⟩
          · exact ⟨x, by simp, h'⟩
          · exact ⟨d, by simp [hd], h'⟩
        obtain ⟨d, hd, rfl⟩ := this
        rw [List.mem_filter, decide_eq_true_iff] at hd
        refine ⟨d, hd.1, hd.2, fun d' hd' hlt' => ?_⟩
        have : d' ∈ cs.filter fun d => decide (c.2 < d.1) := by
          rw [List.mem_filter, decide_eq_true_iff]; exact ⟨hd', hlt'⟩
        rw [hxs] at this
        rcases List.mem_cons.mp this with rfl | h'
        · exact n2
        · exact n3 d' h'
      obtain ⟨d, hd, hcd, hdmin⟩ := hex
      obtain ⟨d1, d2, d3, d4, d5⟩ := hcomp d hd
      refine h.not_full hAB c3 d2 hcd ?_ ?_ ?_ ?_ ?_ hall
      · exact h.as.trans (c4.trans c1.le)
      · exact d1.le.trans (d5.trans h.eb)
      · exact c4.trans c1.le
      · exact d1.le.trans d5
      · intro x hx
        by_cases hxc : c.2 < x.1
        · exact Or.inr (hdmin x hx hxc)
        · left
          by_cases hxe : c = x
          · rw [hxe]
          · rcases hap c hc x hx hxe with h' | h'
            · exfalso
              exact hn1 (List.mem_map.mpr ⟨x, hx, le_antisymm (not_lt.mp hxc) h'⟩)
            · exact h'.trans c1.le
  · rintro ⟨e1, e2, hch⟩ p hp
    rw [mem_seg_iff_of_le hAB.le] at hp
    have : ∃ c ∈ pre, ¬ AtMostOne (seg A B ∩ segPts c) ∧ p ∈ segPts c := by
      rw [h.cov p hp.1 hp.2.1 hp.2.2]
      by_contra hno
      push Not at hno
      obtain ⟨n1, n2, n3⟩ := hno
      have hsp : s ≤ p := by
        rcases h.as.eq_or_lt with h' | h'
        · rw [← h']; exact hp.2.1
        · exact (n1 h').le
      have hpe : p ≤ e := by
        rcases h.eb.eq_or_lt with h' | h'
        · rw [h']; exact hp.2.2
        · exact (n2 h').le
      -- the piece with the greatest start not after `p`
      have key : ∀ n : ℕ, ∃ L : List (Point × Point), L.length = n ∧ L.Nodup ∧ (∀ c ∈ L, c ∈ cs ∧ c.1 ≤ p) ∧
          ∀ c ∈ L.head?, ∀ d ∈ L, d.1 ≤ c.1 := by
        intro n
        induction n with
        | zero => exact ⟨[], rfl, by simp, by simp, by simp⟩
        | succ n ih =>
          obtain ⟨L, hL, hnd, hmemL, hhd⟩ := ih
          have hnext : ∃ c, c ∈ cs ∧ c.1 ≤ p ∧ ∀ d ∈ L, d.1 < c.1 := by
            rcases L with - | ⟨x, xs⟩
            · exact ⟨cm, hcm, e1 ▸ hsp, by simp⟩
            · have hx := hmemL x (by simp)
              have hxp : x.2 < p := n3 x hx.1 hx.2
              have hx2 : x.2 ≠ cM.2 := by
                intro h'
                rw [h', e2] at hxp
                exact absurd hxp (not_lt.mpr hpe)
              rcases hch x hx.1 with h' | h'
              · obtain ⟨d, hd, hde⟩ := List.mem_map.mp h'
                refine ⟨d, hd, by rw [hde]; exact hxp.le, fun y hy => ?_⟩
                have := hhd x (by simp) y hy
                rw [hde]
                exact this.trans_lt (hcomp x hx.1).1
              · exact absurd h' hx2
          obtain ⟨c, hc, hcp, hgt⟩ := hnext
          refine ⟨c :: L, by simp [hL], ?_, ?_, ?_⟩
          · rw [List.nodup_cons]
            exact ⟨fun h' => absurd (hgt c h') (lt_irrefl _), hnd⟩
          · intro d hd
            rcases List.mem_cons.mp hd with rfl | hd
            · exact ⟨hc, hcp⟩
            · exact hmemL d hd
          · intro c' hc' d hd
            simp only [List.head?_cons, Option.mem_def, Option.some.injEq] at hc'
            subst hc'
            rcases List.mem_cons.mp hd with rfl | hd
            · exact le_rfl
            · exact (hgt d hd).le
      obtain ⟨L, hL, hnd, hmemL, -⟩ := key (cs.length + 1)
      have hsub : L ⊆ cs := fun c hc => (hmemL c hc).1
      have := (List.subperm_of_subset hnd hsub).length_le
      omega
    obtain ⟨c, hc, -, hp⟩ := this
    exact ⟨c, hc, hp⟩

end

end Rene
