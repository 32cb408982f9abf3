import Verif.Lemmas.RelateMulti
import Verif.Props.SegmentOps
import Verif.Props.MixedExamples

/-! # C53: the relation of two contours or multisegments -/

namespace Rene
open Spec Sweep

theorem _root_.Rene.Spec.FullyNoded.sublist {l l' : List Segment} (h : FullyNoded l') (hs : l.Sublist l') : FullyNoded l :=
  ⟨fun s m => h.1 s (hs.subset m), h.2.sublist hs⟩

theorem _root_.Rene.Spec.FullyNoded.noOverlap {l : List Segment} (h : FullyNoded l) : NoOverlap l := ⟨h.1, h.2.imp fun k => k.1⟩

theorem _root_.Rene.Spec.FullyNoded.wellJoined {l : List Segment} (h : FullyNoded l) : WellJoined l := by
  refine ⟨h.1, List.Pairwise.imp_of_mem ?_ h.2⟩
  intro s t hs ht k
  refine ⟨k.1, ?_⟩
  rw [Set.eq_empty_iff_forall_notMem]
  rintro p ⟨p1, p2⟩
  have q1 := openSeg_subset_seg _ _ p1
  have q2 := openSeg_subset_seg _ _ p2
  rcases (k.2 p q1 q2).1 with z | z
  · rw [z] at p1; exact not_mem_openSeg_left (h.1 s hs) p1
  · rw [z] at p1; exact not_mem_openSeg_right (h.1 s hs) p1

/-- What is used of the answer about a segment and some of the segments of a geometry. -/
def Ans (r : Relation) (a b : Point) (l full : List Segment) : Prop :=
  (r = .equal ∧ seg a b = segsPts l) ∨ (r = .component ∧ seg a b ⊆ segsPts l) ∨
  (r = .composite ∧ segsPts l ⊂ seg a b) ∨ (r = .overlap ∧ HasOverlap a b l ∧ ¬ segsPts full ⊆ seg a b) ∨
  ((r = .cross ∨ r = .touch) ∧ ¬ HasOverlap a b l ∧ (seg a b ∩ segsPts l).Nonempty) ∨
  (r = .disjoint ∧ seg a b ∩ segsPts l = ∅)

theorem segsPts_mono {l l' : List Segment} (h : ∀ s ∈ l, s ∈ l') : segsPts l ⊆ segsPts l' :=
  fun _ ⟨s, hs, hp⟩ => ⟨s, h s hs, hp⟩

theorem relater_ans {g : Multisegmental} (hc : Constructed g) (hn : FullyNoded g.segments) {l : List Segment}
    (hl : l.Sublist g.segments) (hlen : 2 ≤ l.length) {a b : Point} (hab : a ≠ b) :
    ∃ r, g.relater a b l = .ok r ∧ Ans r a b l g.segments := by
  have hn' := Spec.FullyNoded.sublist hn hl
  cases g with
  | contour c =>
    obtain ⟨r, h1, h2⟩ := relateToContourSegments_weak hab (edges := l) (by intro z; rw [z] at hlen; simp at hlen) hn'.1
    refine ⟨r, h1, ?_⟩
    have := contour_not_sub c hc (Spec.FullyNoded.noOverlap hn) hab
    rcases h2 with ⟨h2, e, he, h3⟩ | ⟨h2, h3⟩ | h2 | h2
    · exact Or.inr (Or.inl ⟨h2, fun p hp => ⟨e, he, h3 hp⟩⟩)
    · exact Or.inr (Or.inr (Or.inr (Or.inl ⟨h2, h3, this⟩)))
    · exact Or.inr (Or.inr (Or.inr (Or.inr (Or.inl h2))))
    · exact Or.inr (Or.inr (Or.inr (Or.inr (Or.inr h2))))
  | multisegment m =>
    refine ⟨_, rfl, ?_⟩
    have h := relateToMultisegmentSegments_sound hab hlen (Spec.FullyNoded.wellJoined hn')
    revert h
    generalize relateToMultisegmentSegments a b l = r
    unfold Ans
    cases r <;> intro h <;> try exact h.elim
    · exact Or.inr (Or.inl ⟨rfl, h.1⟩)
    · exact Or.inr (Or.inr (Or.inl ⟨rfl, h⟩))
    · exact Or.inr (Or.inr (Or.inr (Or.inr (Or.inl ⟨Or.inl rfl, h.1, by
        obtain ⟨h1, h2⟩ := h
        rcases h2 with ⟨s, hs, p, hp, -⟩ | ⟨p, u, w, p1, -, p2, -⟩
        · have : p ∈ seg a b ∩ seg s.start s.end := by rw [hp]; rfl
          exact ⟨p, this.1, s, hs, this.2⟩
        · rcases p2 with p2 | p2
          · exact ⟨p, openSeg_subset_seg _ _ p1, _, p2, start_mem_seg _ _⟩
          · exact ⟨p, openSeg_subset_seg _ _ p1, _, p2, end_mem_seg _ _⟩⟩))))
    · exact Or.inr (Or.inr (Or.inr (Or.inr (Or.inr ⟨rfl, h⟩))))
    · exact Or.inl ⟨rfl, h⟩
    · exact Or.inr (Or.inr (Or.inr (Or.inl ⟨rfl, h.1, fun z => h.2.2 ((segsPts_mono hl.subset).trans z)⟩)))
    · exact Or.inr (Or.inr (Or.inr (Or.inr (Or.inl ⟨Or.inr rfl, h.1, h.2.2⟩))))

theorem hasOverlap_iff {a b : Point} {l : List Segment} :
    HasOverlap a b l ↔ (seg a b ∩ segsPts l).Infinite := by
  have := infinite_iff (l := [⟨a, b⟩]) (l' := l)
  have e : segsPts [(⟨a, b⟩ : Segment)] = seg a b := by
    ext p
    constructor
    · rintro ⟨s, hs, hp⟩
      rw [List.mem_singleton] at hs
      subst hs; exact hp
    · exact fun hp => ⟨⟨a, b⟩, by simp, hp⟩
  rw [e] at this
  rw [this]
  unfold HasOverlap
  simp [segPts]

theorem infinite_segs {l : List Segment} {s : Segment} (hs : s ∈ l) (h : s.start ≠ s.end) {T : Set Point}
    (hT : segsPts l ⊆ T) : T.Infinite :=
  (infinite_seg h).mono fun _ hp => hT ⟨s, hs, hp⟩

theorem length_constructed {g : Multisegmental} (h : Constructed g) : 2 ≤ g.segments.length := by
  cases g with
  | contour c =>
    have h : 3 ≤ c.vertices.length := h
    have := (C32_contour_segments c (by intro z; rw [z] at h; simp at h)).1
    show 2 ≤ c.segments.length
    omega
  | multisegment m => exact h

theorem exists_dropped {l : List Segment} {P : Segment → Bool} (h : (l.filter P).length ≠ l.length) :
    ∃ u ∈ l, P u = false := by
  by_contra hn
  push Not at hn
  apply h
  rw [List.filter_eq_self.mpr]
  intro u hu
  simpa using hn u hu

section
variable {first second : Multisegmental}

/-- C53: for two constructed contours or multisegments whose segments meet only at common endpoints, neither of which
is just one segment of the other, the relation is the one of their point sets (CROSS and TOUCH both say that there
are finitely many, but some, common points); otherwise there are no common points and the call raises
`AssertionError`. -/
theorem C53_relate (hc1 : Constructed first) (hc2 : Constructed second)
    (h1 : FullyNoded first.segments) (h2 : FullyNoded second.segments)
    (e1 : ¬ ∃ s ∈ second.segments, segsPts first.segments = segPts s)
    (e2 : ¬ ∃ s ∈ first.segments, segsPts second.segments = segPts s) :
    (∃ r, relateMultisegmentals first second = .ok r ∧
      LinearRel r (segsPts first.segments) (segsPts second.segments)) ∨
    (relateMultisegmentals first second = .error .assertionError ∧
      segsPts first.segments ∩ segsPts second.segments = ∅) := by
  have t1 := (multisegmental_tight hc1).1
  have t2 := (multisegmental_tight hc2).1
  have len1 := length_constructed hc1
  have len2 := length_constructed hc2
  set A := segsPts first.segments with hA
  set B := segsPts second.segments with hB
  unfold relateMultisegmentals
  simp only
  by_cases k1 : first.boundingBox.disjointWith second.boundingBox = true
  · rw [if_pos k1]
    refine Or.inl ⟨_, rfl, ?_⟩
    have := inter_empty_of_disjointWith k1
    exact Set.subset_eq_empty (Set.inter_subset_inter t1 t2) this
  rw [if_neg k1]
  set P1 : Segment → Bool := fun s => !s.boundingBox.disjointWith second.boundingBox with hP1
  set P2 : Segment → Bool := fun s => !s.boundingBox.disjointWith first.boundingBox with hP2
  -- a segment with a common point is kept
  have keep1 : ∀ {u q}, q ∈ segPts u → q ∈ B → P1 u = true := by
    intro u q hq hb
    by_contra hn
    have hd : u.boundingBox.disjointWith second.boundingBox = true := by simpa [hP1] using hn
    have : q ∈ boxPts u.boundingBox ∩ boxPts second.boundingBox := ⟨segPts_subset_boundingBox u hq, t2 hb⟩
    rw [inter_empty_of_disjointWith hd] at this
    exact absurd this (by simp)
  have keep2 : ∀ {u q}, q ∈ segPts u → q ∈ A → P2 u = true := by
    intro u q hq hb
    by_contra hn
    have hd : u.boundingBox.disjointWith first.boundingBox = true := by simpa [hP2] using hn
    have : q ∈ boxPts u.boundingBox ∩ boxPts first.boundingBox := ⟨segPts_subset_boundingBox u hq, t1 hb⟩
    rw [inter_empty_of_disjointWith hd] at this
    exact absurd this (by simp)
  have sub1 : (first.segments.filter P1).Sublist first.segments := List.filter_sublist
  have sub2 : (second.segments.filter P2).Sublist second.segments := List.filter_sublist
  have inA : ∀ {q}, q ∈ A → q ∈ B → q ∈ segsPts (first.segments.filter P1) := by
    rintro q ⟨u, hu, hq⟩ hb
    exact ⟨u, List.mem_filter.mpr ⟨hu, keep1 hq hb⟩, hq⟩
  have inB : ∀ {q}, q ∈ A → q ∈ B → q ∈ segsPts (second.segments.filter P2) := by
    rintro q ha ⟨u, hu, hq⟩
    exact ⟨u, List.mem_filter.mpr ⟨hu, keep2 hq ha⟩, hq⟩
  have drop1 : (first.segments.filter P1).length ≠ first.segments.length → ¬ A ⊆ B := by
    intro h hs
    obtain ⟨u, hu, hn⟩ := exists_dropped h
    have := keep1 (u := u) (start_mem_seg _ _) (hs ⟨u, hu, start_mem_seg _ _⟩)
    rw [hn] at this; exact absurd this (by decide)
  have drop2 : (second.segments.filter P2).length ≠ second.segments.length → ¬ B ⊆ A := by
    intro h hs
    obtain ⟨u, hu, hn⟩ := exists_dropped h
    have := keep2 (u := u) (start_mem_seg _ _) (hs ⟨u, hu, start_mem_seg _ _⟩)
    rw [hn] at this; exact absurd this (by decide)
  match hf : first.segments.filter P1 with
  | [] =>
    simp only
    refine Or.inl ⟨_, rfl, ?_⟩
    rw [hf] at inA
    rw [show LinearRel .disjoint A B ↔ A ∩ B = ∅ from Iff.rfl, Set.eq_empty_iff_forall_notMem]
    rintro q ⟨qa, qb⟩
    obtain ⟨u, hu, -⟩ := inA qa qb
    simp at hu
  | [s] =>
    simp only
    rw [hf] at inA drop1 sub1
    have hs : s ∈ first.segments := sub1.subset (by simp)
    have sA : segPts s ⊆ A := fun p hp => ⟨s, hs, hp⟩
    have nAB : ¬ A ⊆ B := drop1 (by simp; omega)
    have eq : A ∩ B = seg s.start s.end ∩ B := by
      ext q
      constructor
      · rintro ⟨qa, qb⟩
        obtain ⟨u, hu, hq⟩ := inA qa qb
        rw [List.mem_singleton] at hu
        subst hu; exact ⟨hq, qb⟩
      · rintro ⟨qa, qb⟩; exact ⟨sA qa, qb⟩
    have hBs : B ⊆ A → B ⊆ segPts s := by
      intro hba q hq
      have : q ∈ A ∩ B := ⟨hba hq, hq⟩
      rw [eq] at this; exact this.1
    obtain ⟨r, hr, ha⟩ := relater_ans hc2 h2 (List.Sublist.refl _) len2 (h1.1 s hs)
    left
    refine ⟨_, by rw [hr]; rfl, ?_⟩
    rcases ha with ⟨rfl, ha⟩ | ⟨rfl, ha⟩ | ⟨rfl, ha⟩ | ⟨rfl, ha, ha'⟩ | ⟨hr', ha, ha'⟩ | ⟨rfl, ha⟩
    · exact absurd ⟨s, hs, ha.symm⟩ e2
    · refine ⟨nAB, fun z => e2 ⟨s, hs, ?_⟩, ?_⟩
      · exact Set.Subset.antisymm (hBs z) ha
      · rw [eq, Set.inter_eq_left.mpr ha]; exact infinite_seg (h1.1 s hs)
    · exact ⟨ha.1.trans sA, nAB⟩
    · exact ⟨nAB, fun z => ha' (hBs z), by rw [eq]; exact hasOverlap_iff.mp ha⟩
    · have : (A ∩ B).Finite ∧ (A ∩ B).Nonempty := by
        rw [eq]
        exact ⟨by rw [← Set.not_infinite]; exact fun z => ha (hasOverlap_iff.mpr z), ha'⟩
      rcases hr' with rfl | rfl <;> exact this
    · show A ∩ B = ∅
      rw [eq]; exact ha
  | s1 :: s2 :: srest =>
    simp only
    rw [← hf]
    have lenf : 2 ≤ (first.segments.filter P1).length := by rw [hf]; simp
    have A'A : segsPts (first.segments.filter P1) ⊆ A := segsPts_mono sub1.subset
    match hg : second.segments.filter P2 with
    | [] =>
      simp only
      refine Or.inl ⟨_, rfl, ?_⟩
      rw [hg] at inB
      rw [show LinearRel .disjoint A B ↔ A ∩ B = ∅ from Iff.rfl, Set.eq_empty_iff_forall_notMem]
      rintro q ⟨qa, qb⟩
      obtain ⟨u, hu, -⟩ := inB qa qb
      simp at hu
    | [s] =>
      simp only
      rw [hg] at inB drop2 sub2
      have hs : s ∈ second.segments := sub2.subset (by simp)
      have sB : segPts s ⊆ B := fun p hp => ⟨s, hs, hp⟩
      have nBA : ¬ B ⊆ A := drop2 (by simp; omega)
      have eq : A ∩ B = seg s.start s.end ∩ segsPts (first.segments.filter P1) := by
        ext q
        constructor
        · rintro ⟨qa, qb⟩
          obtain ⟨u, hu, hq⟩ := inB qa qb
          rw [List.mem_singleton] at hu
          subst hu; exact ⟨hq, inA qa qb⟩
        · rintro ⟨qa, qb⟩; exact ⟨A'A qb, sB qa⟩
      have hAs : A ⊆ B → A ⊆ segPts s := by
        intro hba q hq
        have : q ∈ A ∩ B := ⟨hq, hba hq⟩
        rw [eq] at this; exact this.1
      obtain ⟨r, hr, ha⟩ := relater_ans hc1 h1 sub1 lenf (h2.1 s hs)
      have hs1 : s1 ∈ first.segments.filter P1 := by rw [hf]; simp
      left
      refine ⟨_, by rw [hr]; rfl, ?_⟩
      rcases ha with ⟨rfl, ha⟩ | ⟨rfl, ha⟩ | ⟨rfl, ha⟩ | ⟨rfl, ha, ha'⟩ | ⟨hr', ha, ha'⟩ | ⟨rfl, ha⟩
      · by_cases hl : (first.segments.filter P1).length = first.segments.length
        · exfalso
          rw [List.Sublist.eq_of_length sub1 hl] at ha
          exact e1 ⟨s, hs, ha.symm⟩
        · rw [if_pos (Or.inr ⟨Or.inr rfl, hl⟩)]
          refine ⟨drop1 hl, nBA, ?_⟩
          rw [eq, ha, Set.inter_self]
          exact infinite_segs hs1 (h1.1 s1 (sub1.subset hs1)) Set.Subset.rfl
      · rw [if_pos (Or.inl rfl)]
        refine ⟨fun z => e1 ⟨s, hs, ?_⟩, nBA, ?_⟩
        · exact Set.Subset.antisymm (hAs z) (ha.trans A'A)
        · rw [eq, Set.inter_eq_left.mpr ha]; exact infinite_seg (h2.1 s hs)
      · by_cases hl : (first.segments.filter P1).length = first.segments.length
        · rw [if_neg (by simp [hl])]
          have : first.segments.filter P1 = first.segments := List.Sublist.eq_of_length sub1 hl
          rw [this] at ha
          exact ⟨ha.1.trans sB, nBA⟩
        · rw [if_pos (Or.inr ⟨Or.inl rfl, hl⟩)]
          refine ⟨drop1 hl, nBA, ?_⟩
          rw [eq, Set.inter_eq_right.mpr ha.1]
          exact infinite_segs hs1 (h1.1 s1 (sub1.subset hs1)) Set.Subset.rfl
      · rw [if_neg (by simp)]
        exact ⟨fun z => ha' (hAs z), nBA, by rw [eq]; exact hasOverlap_iff.mp ha⟩
      · have : (A ∩ B).Finite ∧ (A ∩ B).Nonempty := by
          rw [eq]
          exact ⟨by rw [← Set.not_infinite]; exact fun z => ha (hasOverlap_iff.mpr z), ha'⟩
        rcases hr' with rfl | rfl <;> rw [if_neg (by simp)] <;> exact this
      · rw [if_neg (by simp)]
        show A ∩ B = ∅
        rw [eq]; exact ha
    | u1 :: u2 :: urest =>
      simp only
      rw [← hg]
      -- the common range
      set lo := max (listMin ((first.segments.filter P1).map fun s => s.boundingBox.minX))
        (listMin ((second.segments.filter P2).map fun s => s.boundingBox.minX)) with hlo
      set hi := min (listMax ((first.segments.filter P1).map fun s => s.boundingBox.maxX))
        (listMax ((second.segments.filter P2).map fun s => s.boundingBox.maxX)) with hhi
      set Q : Segment → Bool := fun s => decide (lo ≤ s.boundingBox.maxX) && decide (s.boundingBox.minX ≤ hi) with hQ
      have range : ∀ {q}, q ∈ A → q ∈ B → lo ≤ q.x ∧ q.x ≤ hi := by
        intro q qa qb
        exact ⟨max_le (listMin_le_x (inA qa qb)) (listMin_le_x (inB qa qb)),
          le_min (x_le_listMax (inA qa qb)) (x_le_listMax (inB qa qb))⟩
      have keepQ : ∀ {u q}, q ∈ segPts u → q ∈ A → q ∈ B → Q u = true := by
        intro u q hq qa qb
        obtain ⟨r1, r2⟩ := range qa qb
        have m := mem_boxPts.mp (segPts_subset_boundingBox u hq)
        simp only [hQ, Bool.and_eq_true, decide_eq_true_eq]
        exact ⟨r1.trans m.2.1, m.1.trans r2⟩
      set K1 := (first.segments.filter P1).filter Q with hK1
      set K2 := (second.segments.filter P2).filter Q with hK2
      have sK1 : K1.Sublist first.segments := List.filter_sublist.trans sub1
      have sK2 : K2.Sublist second.segments := List.filter_sublist.trans sub2
      have memK1 : ∀ {u q}, u ∈ first.segments → q ∈ segPts u → q ∈ B → u ∈ K1 := fun hu hq qb =>
        List.mem_filter.mpr ⟨List.mem_filter.mpr ⟨hu, keep1 hq qb⟩, keepQ hq ⟨_, hu, hq⟩ qb⟩
      have memK2 : ∀ {u q}, u ∈ second.segments → q ∈ segPts u → q ∈ A → u ∈ K2 := fun hu hq qa =>
        List.mem_filter.mpr ⟨List.mem_filter.mpr ⟨hu, keep2 hq qa⟩, keepQ hq qa ⟨_, hu, hq⟩⟩
      have KA : segsPts K1 ⊆ A := segsPts_mono sK1.subset
      have KB : segsPts K2 ⊆ B := segsPts_mono sK2.subset
      have eq : A ∩ B = segsPts K1 ∩ segsPts K2 := by
        ext q
        constructor
        · rintro ⟨⟨u, hu, hq⟩, w, hw, hq'⟩
          exact ⟨⟨u, memK1 hu hq ⟨w, hw, hq'⟩, hq⟩, w, memK2 hw hq' ⟨u, hu, hq⟩, hq'⟩
        · rintro ⟨a, b⟩; exact ⟨KA a, KB b⟩
      by_cases z1 : K1 = []
      · rw [if_pos z1]
        refine Or.inl ⟨_, rfl, ?_⟩
        show A ∩ B = ∅
        rw [eq, z1, Set.eq_empty_iff_forall_notMem]
        rintro q ⟨⟨u, hu, -⟩, -⟩; simp at hu
      rw [if_neg z1]
      by_cases z2 : K2 = []
      · rw [if_pos z2]
        refine Or.inr ⟨rfl, ?_⟩
        rw [eq, z2, Set.eq_empty_iff_forall_notMem]
        rintro q ⟨-, u, hu, -⟩; simp at hu
      rw [if_neg z2]
      obtain ⟨st, hr, f1, f2, f3, f4, f5⟩ := toRelation_spec (fs := decide (K1.length = first.segments.length))
        (ss := decide (K2.length = second.segments.length)) (m := hi) (Spec.FullyNoded.sublist h1 sK1) (Spec.FullyNoded.sublist h2 sK2) z1 (by
          rcases min_choice (listMax ((first.segments.filter P1).map fun s => s.boundingBox.maxX))
            (listMax ((second.segments.filter P2).map fun s => s.boundingBox.maxX)) with k | k
          · left
            intro q hq
            rw [hhi, k]
            exact x_le_listMax (segsPts_mono List.filter_sublist.subset hq)
          · right
            intro q hq
            rw [hhi, k]
            exact x_le_listMax (segsPts_mono List.filter_sublist.subset hq))
      left
      refine ⟨_, hr, ?_⟩
      have g1 : st.firstIsSubset = true ↔ A ⊆ B := by
        rw [f1, decide_eq_true_eq]
        constructor
        · rintro ⟨a, b⟩
          have hk : K1 = first.segments := List.Sublist.eq_of_length sK1 a
          have hA' : A = segsPts K1 := by rw [hk]
          rw [hA']; exact b.trans KB
        · intro h
          refine ⟨?_, fun q hq => ?_⟩
          · have : ∀ u ∈ first.segments, (P1 u && Q u) = true := fun u hu => by
              have := memK1 hu (start_mem_seg _ _) (h ⟨u, hu, start_mem_seg _ _⟩)
              rw [hK1, List.filter_filter, List.mem_filter, Bool.and_comm] at this
              exact this.2
            rw [hK1, List.filter_filter, List.filter_eq_self.mpr fun u hu => by rw [Bool.and_comm]; exact this u hu]
          · have : q ∈ A ∩ B := ⟨KA hq, h (KA hq)⟩
            rw [eq] at this; exact this.2
      have g2 : st.secondIsSubset = true ↔ B ⊆ A := by
        rw [f2, decide_eq_true_eq]
        constructor
        · rintro ⟨a, b⟩
          have hk : K2 = second.segments := List.Sublist.eq_of_length sK2 a
          have hB' : B = segsPts K2 := by rw [hk]
          rw [hB']; exact b.trans KA
        · intro h
          refine ⟨?_, fun q hq => ?_⟩
          · have : ∀ u ∈ second.segments, (P2 u && Q u) = true := fun u hu => by
              have := memK2 hu (start_mem_seg _ _) (h ⟨u, hu, start_mem_seg _ _⟩)
              rw [hK2, List.filter_filter, List.mem_filter, Bool.and_comm] at this
              exact this.2
            rw [hK2, List.filter_filter, List.filter_eq_self.mpr fun u hu => by rw [Bool.and_comm]; exact this u hu]
          · have : q ∈ A ∩ B := ⟨h (KB hq), KB hq⟩
            rw [eq] at this; exact this.1
      rw [← eq] at f3 f4
      unfold RelationState.relation
      by_cases y1 : st.firstIsSubset = true
      · rw [if_pos y1]
        by_cases y2 : st.secondIsSubset = true
        · rw [if_pos y2]; exact Set.Subset.antisymm (g1.mp y1) (g2.mp y2)
        · rw [if_neg y2]; exact ⟨g1.mp y1, fun z => y2 (g2.mpr z)⟩
      rw [if_neg y1]
      by_cases y2 : st.secondIsSubset = true
      · rw [if_pos y2]; exact ⟨g2.mp y2, fun z => y1 (g1.mpr z)⟩
      rw [if_neg y2]
      by_cases y3 : st.hasOverlap = true
      · rw [if_pos y3]; exact ⟨fun z => y1 (g1.mpr z), fun z => y2 (g2.mpr z), f3.mp y3⟩
      rw [if_neg y3]
      have fin : (A ∩ B).Finite := Set.not_infinite.mp fun z => y3 (f3.mpr z)
      by_cases y4 : st.hasCrossing = true
      · rw [if_pos y4]; exact ⟨fin, f4.mp (f5 y4)⟩
      rw [if_neg y4]
      by_cases y5 : st.hasIntersection = true
      · rw [if_pos y5]; exact ⟨fin, f4.mp y5⟩
      · rw [if_neg y5]
        exact Set.not_nonempty_iff_eq_empty.mp fun z => y5 (f4.mpr z)

end

/-- C53 for two contours: the relation is the one of the two closed curves. -/
theorem C53_relate_contours {first second : Contour} (hc1 : 3 ≤ first.vertices.length)
    (hc2 : 3 ≤ second.vertices.length) (h1 : FullyNoded first.segments) (h2 : FullyNoded second.segments) :
    (∃ r, relateMultisegmentals (.contour first) (.contour second) = .ok r ∧
      LinearRel r (segsPts first.segments) (segsPts second.segments)) ∨
    (relateMultisegmentals (.contour first) (.contour second) = .error .assertionError ∧
      segsPts first.segments ∩ segsPts second.segments = ∅) :=
  C53_relate (first := .contour first) (second := .contour second) hc1 hc2 h1 h2
    (by
      rintro ⟨s, hs, e⟩
      exact contour_not_sub first hc1 (Spec.FullyNoded.noOverlap h1) (h2.1 s hs) e.subset)
    (by
      rintro ⟨s, hs, e⟩
      exact contour_not_sub second hc2 (Spec.FullyNoded.noOverlap h2) (h1.1 s hs) e.subset)

section Examples

private def sg (a b c d : ℚ) : Segment := ⟨⟨a, b⟩, ⟨c, d⟩⟩

private def square : Contour := ⟨[⟨0, 0⟩, ⟨4, 0⟩, ⟨4, 4⟩, ⟨0, 4⟩]⟩
private def shifted : Contour := ⟨[⟨2, 2⟩, ⟨6, 2⟩, ⟨6, 6⟩, ⟨2, 6⟩]⟩
private def neighbour : Contour := ⟨[⟨4, 1⟩, ⟨6, 0⟩, ⟨6, 6⟩, ⟨4, 3⟩]⟩
private def inner : Contour := ⟨[⟨1, 1⟩, ⟨2, 1⟩, ⟨2, 2⟩]⟩

private theorem noded_square : FullyNoded square.segments :=
  fullyNoded_of_nodedB ⟨by decide +kernel, by decide +kernel⟩
private theorem noded_shifted : FullyNoded shifted.segments :=
  fullyNoded_of_nodedB ⟨by decide +kernel, by decide +kernel⟩

/-- The hypotheses of C53 are met, and the answers are of all kinds. -/
example : (∃ r, relateMultisegmentals (.contour square) (.contour shifted) = .ok r ∧
      LinearRel r (segsPts square.segments) (segsPts shifted.segments)) ∨
    (relateMultisegmentals (.contour square) (.contour shifted) = .error .assertionError ∧
      segsPts square.segments ∩ segsPts shifted.segments = ∅) :=
  C53_relate_contours (by decide) (by decide) noded_square noded_shifted

example : relateMultisegmentals (.contour square) (.contour shifted) = .ok .cross ∧
    relateMultisegmentals (.contour square) (.contour neighbour) = .ok .overlap ∧
    relateMultisegmentals (.contour square) (.contour inner) = .ok .disjoint ∧
    relateMultisegmentals (.contour square) (.contour ⟨[⟨4, 4⟩, ⟨0, 4⟩, ⟨0, 2⟩, ⟨0, 0⟩, ⟨4, 0⟩]⟩) = .ok .equal ∧
    relateMultisegmentals (.contour square) (.multisegment ⟨[sg 0 0 1 0, sg 4 4 4 3]⟩) = .ok .composite ∧
    relateMultisegmentals (.multisegment ⟨[sg 0 0 1 0, sg 4 4 4 3]⟩) (.contour square) = .ok .component ∧
    relateMultisegmentals (.contour square) (.multisegment ⟨[sg 0 2 (-3) 1, sg 0 1 (-3) 5]⟩) = .ok .touch := by
  decide +kernel

end Examples

section Findings

private def halves : Multisegmental := .multisegment ⟨[sg 0 0 1 0, sg 1 0 2 0]⟩
private def whole : Multisegmental := .multisegment ⟨[sg 0 0 2 0, sg 5 5 6 6]⟩

/-- Finding: without the condition that no operand is one segment of the other, the answers are wrong.  The
multisegment `{(0,0)-(1,0), (1,0)-(2,0)}` is reported EQUAL to `{(0,0)-(2,0), (5,5)-(6,6)}`, which has more
points, and the relation of the second to the first is reported OVERLAP. -/
theorem C53_equal_of_proper_part : FullyNoded halves.segments ∧ FullyNoded whole.segments ∧
    relateMultisegmentals halves whole = .ok .equal ∧ relateMultisegmentals whole halves = .ok .overlap ∧
    ¬ LinearRel .equal (segsPts halves.segments) (segsPts whole.segments) ∧
    ¬ LinearRel .overlap (segsPts whole.segments) (segsPts halves.segments) := by
  refine ⟨fullyNoded_of_nodedB ⟨by decide +kernel, by decide +kernel⟩,
    fullyNoded_of_nodedB ⟨by decide +kernel, by decide +kernel⟩, by decide +kernel, by decide +kernel, ?_, ?_⟩
  · intro (h : segsPts halves.segments = segsPts whole.segments)
    have : (⟨5, 5⟩ : Point) ∈ segsPts whole.segments := ⟨sg 5 5 6 6, by simp [whole, Multisegmental.segments], start_mem_seg _ _⟩
    rw [← h] at this
    obtain ⟨s, hs, hp⟩ := this
    have m := mem_boxPts.mp (segPts_subset_boundingBox s hp)
    revert m hs
    simp only [halves, Multisegmental.segments, List.mem_cons, List.not_mem_nil, or_false]
    rintro (rfl | rfl) <;> decide +kernel
  · rintro ⟨-, h, -⟩
    apply h
    rintro q ⟨s, hs, hp⟩
    refine ⟨sg 0 0 2 0, by simp [whole, Multisegmental.segments], ?_⟩
    obtain ⟨t, t0, t1, rfl⟩ := hp
    simp only [halves, Multisegmental.segments, List.mem_cons, List.not_mem_nil, or_false] at hs
    rcases hs with rfl | rfl
    · refine ⟨t / 2, by linarith, by linarith, ?_⟩
      simp [lerp, sg]
    · refine ⟨(t + 1) / 2, by linarith, by linarith, ?_⟩
      simp [lerp, sg]
      ring

private def tee : Multisegmental := .multisegment ⟨[sg 0 0 2 2, sg (-1) 0 1 0]⟩

/-- Finding: a multisegment with an endpoint of a segment in the middle of another one, related to itself, is
reported OVERLAP. -/
theorem C53_not_equal_to_itself : WellJoined tee.segments ∧ relateMultisegmentals tee tee = .ok .overlap := by
  refine ⟨?_, by decide +kernel⟩
  refine ⟨by decide +kernel, ?_⟩
  have key : ∀ p, p ∈ segPts (sg 0 0 2 2) → p ∈ segPts (sg (-1) 0 1 0) → p = ⟨0, 0⟩ := by
    rintro p ⟨t, -, -, rfl⟩ ⟨u, -, -, h⟩
    have h2 := congrArg Point.y h
    simp [lerp, sg] at h2
    simp [lerp, sg, h2]
  show List.Pairwise Joined [sg 0 0 2 2, sg (-1) 0 1 0]
  rw [List.pairwise_pair]
  refine ⟨fun p hp q hq => (key p hp.1 hp.2).trans (key q hq.1 hq.2).symm, ?_⟩
  rw [Set.eq_empty_iff_forall_notMem]
  rintro p ⟨h1, h2⟩
  have e := key p (openSeg_subset_seg _ _ h1) (openSeg_subset_seg _ _ h2)
  rw [e] at h1
  exact not_mem_openSeg_left (by decide) h1

private def flat : Multisegmental := .contour ⟨[⟨0, 0⟩, ⟨100, 0⟩, ⟨100, 1⟩, ⟨60, 1⟩, ⟨50, 6⟩, ⟨40, 1⟩, ⟨0, 1⟩]⟩
private def gate : Multisegmental :=
  .contour ⟨[⟨2, 3⟩, ⟨2, 50⟩, ⟨91, 50⟩, ⟨91, 3⟩, ⟨90, 3⟩, ⟨90, 40⟩, ⟨3, 40⟩, ⟨3, 3⟩]⟩

/-- Finding: two simple contours without common points for which the relation is not computed: the assert of
`rene/_relating/multisegmental.py` fails. -/
theorem C53_assertion_error : FullyNoded flat.segments ∧ FullyNoded gate.segments ∧
    relateMultisegmentals flat gate = .error .assertionError :=
  ⟨fullyNoded_of_nodedB ⟨by decide +kernel, by decide +kernel⟩,
    fullyNoded_of_nodedB ⟨by decide +kernel, by decide +kernel⟩, by decide +kernel⟩

private def wedge : Multisegmental := .multisegment ⟨[sg 0 0 1 (-2), sg 0 0 1 2]⟩
private def star : Multisegmental := .multisegment ⟨[sg 0 0 2 0, sg 0 0 (-1) 2, sg 0 0 (-1) (-2)]⟩

/-- Finding: when three segments of an operand meet at a common point, CROSS and TOUCH depend on the order of the
operands: the first is reported TOUCH with the second one, and the second CROSS with the first one.  (`has_crossing`
looks at one angle between segments of the second operand only.) -/
theorem C53_touch_or_cross : FullyNoded wedge.segments ∧ FullyNoded star.segments ∧
    relateMultisegmentals wedge star = .ok .touch ∧ relateMultisegmentals star wedge = .ok .cross :=
  ⟨fullyNoded_of_nodedB ⟨by decide +kernel, by decide +kernel⟩,
    fullyNoded_of_nodedB ⟨by decide +kernel, by decide +kernel⟩, by decide +kernel, by decide +kernel⟩

end Findings

end Rene
