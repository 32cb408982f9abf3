import Verif.Lemmas.MultiMulti
import Verif.Props.Sweep

/-! # C35: boolean operations between multisegments and contours (and a segment with them)

`Constructed` is what the constructors check; `NoOverlap` says that different components of one operand
share at most one point (crossings inside an operand are allowed).  `reg` as in C05-C11. -/

namespace Rene
open Spec

section
variable {first second : Multisegmental}

theorem collectMaybe_result {A B l : List Segment} {T : Set Point} (h : ListResult A B l T)
    (hA : NoOverlap A) (hB : NoOverlap B) : ∃ g, collectMaybeEmptySegments l = .ok g ∧ LinearResult g ∧
    linPts g = reg T ∧ NoOverlap (geomSegs g) ∧ (WellJoined A → WellJoined B → WellJoined (geomSegs g)) := by
  obtain ⟨g, e, hg, hl⟩ := collectMaybe_spec' l
  refine ⟨g, e, hg, ?_, ?_, fun wA wB => ?_⟩
  · unfold linPts; rw [hl]; exact h.pts
  · rw [hl]; exact ⟨h.nd, h.pw _ sep_apart hA.2 hB.2⟩
  · rw [hl]; exact ⟨h.nd, h.pw _ sep_joined wA.2 wB.2⟩

/-- C35 `&`: the regularised intersection; its components meet only at common ends. -/
theorem C35_intersect (hc1 : Constructed first) (hc2 : Constructed second) (h1 : NoOverlap first.segments)
    (h2 : NoOverlap second.segments) :
    ∃ g, intersectMultisegmentals first second = .ok g ∧ LinearResult g ∧
      linPts g = reg (segsPts first.segments ∩ segsPts second.segments) ∧ FullyNoded (geomSegs g) := by
  have t1 := (multisegmental_tight hc1).1
  have t2 := (multisegmental_tight hc2).1
  have em : FullyNoded (geomSegs .empty) := ⟨by simp [geomSegs], List.Pairwise.nil⟩
  unfold intersectMultisegmentals
  simp only
  by_cases k1 : doBoxesHaveNoCommonContinuum first.boundingBox second.boundingBox = true
  · rw [if_pos k1]
    exact ⟨_, rfl, Or.inl rfl, reg_inter_empty (exceptional_of_atMostOne (atMostOne_boxes t1 t2 k1)), em⟩
  rw [if_neg k1]
  by_cases k2 : first.segments.filter (fun s => doBoxesHaveCommonContinuum s.boundingBox second.boundingBox) = []
  · rw [if_pos k2]
    exact ⟨_, rfl, Or.inl rfl, reg_inter_empty (finite_of_nil t2 k2), em⟩
  rw [if_neg k2]
  by_cases k3 : second.segments.filter (fun s => doBoxesHaveCommonContinuum s.boundingBox first.boundingBox) = []
  · rw [if_pos k3]
    refine ⟨_, rfl, Or.inl rfl, ?_, em⟩
    rw [Set.inter_comm]
    exact reg_inter_empty (finite_of_nil t1 k3)
  rw [if_neg k3]
  obtain ⟨n, p⟩ := intersection_list h1 h2 t1 t2 rfl rfl rfl rfl
  obtain ⟨g, e, hg, hl⟩ := collectMaybe_spec' (LinOp.intersection.run _ _ _)
  refine ⟨g, e, hg, ?_, ?_⟩
  · unfold linPts; rw [hl]; exact p
  · rw [hl]; exact n

theorem segments_length (h : Constructed first) : 2 ≤ first.segments.length := by
  cases first with
  | contour c =>
    have h : 3 ≤ c.vertices.length := h
    show 2 ≤ (toContourSegments c.vertices).length
    generalize c.vertices = l at h
    match l, h with
    | a :: b :: d :: l, _ => simp [toContourSegments, consecutive]
  | multisegment m => exact h

theorem unite_append {A B : List Segment} (hA : NoOverlap A) (hB : NoOverlap B) (hl : 2 ≤ A.length + B.length)
    (hp : ∀ P, Sep P → A.Pairwise P → B.Pairwise P → (A ++ B).Pairwise P) :
    ∃ g, newMultisegment (A ++ B) = .ok g ∧ LinearResult g ∧ g ≠ .empty ∧ geomSegs g = A ++ B ∧
    NoOverlap (geomSegs g) ∧ (WellJoined A → WellJoined B → WellJoined (geomSegs g)) := by
  have hl' : 2 ≤ (A ++ B).length := by rw [List.length_append]; exact hl
  have nd : ∀ s ∈ A ++ B, s.start ≠ s.end := by
    intro s hs
    rcases List.mem_append.mp hs with k | k
    · exact hA.1 s k
    · exact hB.1 s k
  exact ⟨_, newMultisegment_ok' _ hl', Or.inr (Or.inr ⟨_, rfl, hl'⟩), by simp, rfl,
    ⟨nd, hp _ sep_apart hA.2 hB.2⟩, fun wA wB => ⟨nd, hp _ sep_joined wA.2 wB.2⟩⟩

/-- C35 `|`: exactly the points of both operands; components overlap nowhere, and they do not cross if
no operand crosses itself. -/
theorem C35_unite (hc1 : Constructed first) (hc2 : Constructed second) (h1 : NoOverlap first.segments)
    (h2 : NoOverlap second.segments) :
    ∃ g, uniteMultisegmentals first second = .ok g ∧ LinearResult g ∧ g ≠ .empty ∧
      linPts g = segsPts first.segments ∪ segsPts second.segments ∧ NoOverlap (geomSegs g) ∧
      (WellJoined first.segments → WellJoined second.segments → WellJoined (geomSegs g)) := by
  have t1 := (multisegmental_tight hc1).1
  have t2 := (multisegmental_tight hc2).1
  have len := segments_length hc1
  have fin : (∀ P, Sep P → first.segments.Pairwise P → second.segments.Pairwise P →
      (first.segments ++ second.segments).Pairwise P) →
      ∃ g, newMultisegment (first.segments ++ second.segments) = .ok g ∧ LinearResult g ∧ g ≠ .empty ∧
      linPts g = segsPts first.segments ∪ segsPts second.segments ∧ NoOverlap (geomSegs g) ∧
      (WellJoined first.segments → WellJoined second.segments → WellJoined (geomSegs g)) := by
    intro hp
    obtain ⟨g, e, k1, k2, k3, k4, k5⟩ := unite_append h1 h2 (by omega) hp
    exact ⟨g, e, k1, k2, by unfold linPts; rw [k3, segsPts_append], k4, k5⟩
  unfold uniteMultisegmentals
  simp only
  by_cases k1 : doBoxesHaveNoCommonContinuum first.boundingBox second.boundingBox = true
  · rw [if_pos k1]
    exact fin fun P hP => pairwise_append_boxes hP h1.1 t1 t2 k1
  rw [if_neg k1]
  by_cases k2 : first.segments.filter (fun s => doBoxesHaveCommonContinuum s.boundingBox second.boundingBox) = []
  · rw [if_pos k2]
    exact fin fun P hP => pairwise_of_nil hP h1 t2 k2
  rw [if_neg k2]
  by_cases k3 : second.segments.filter (fun s => doBoxesHaveCommonContinuum s.boundingBox first.boundingBox) = []
  · rw [if_pos k3]
    exact fin fun P hP p1 p2 => pairwise_comm hP (pairwise_of_nil hP h2 t1 k3 p2 p1)
  rw [if_neg k3]
  have r := union_list h1 h2 t1 t2
  have hpts := r.pts
  rw [← segsPts_append, reg_segsPts (fun s hs => (List.mem_append.mp hs).elim (h1.1 s) (h2.1 s)),
    segsPts_append first.segments] at hpts
  have hne : (LinOp.union.run (fun _ => false)
        (first.segments.filter fun s => doBoxesHaveCommonContinuum s.boundingBox second.boundingBox)
        (second.segments.filter fun s => doBoxesHaveCommonContinuum s.boundingBox first.boundingBox)
      ++ (first.segments.filter fun s => !doBoxesHaveCommonContinuum s.boundingBox second.boundingBox)
      ++ (second.segments.filter fun s => !doBoxesHaveCommonContinuum s.boundingBox first.boundingBox)) ≠ [] := by
    intro e
    rw [e, segsPts_nil] at hpts
    obtain ⟨_, ⟨p, hp, _⟩, _⟩ := multisegmental_tight hc1
    have : p ∈ (∅ : Set Point) := by rw [hpts]; exact Or.inl hp
    exact this
  obtain ⟨g, e, hg, hl⟩ := collectNonEmpty_spec' _ hne
  refine ⟨g, e, hg, ?_, ?_, ?_, fun wA wB => ?_⟩
  · rintro rfl
    exact hne hl.symm
  · unfold linPts; rw [hl]; exact hpts
  · rw [hl]; exact ⟨r.nd, r.pw _ sep_apart h1.2 h2.2⟩
  · rw [hl]; exact ⟨r.nd, r.pw _ sep_joined wA.2 wB.2⟩

/-- C35 `-`: the regularised difference (either the unchanged minuend or a new geometry). -/
theorem C35_subtract (hc1 : Constructed first) (hc2 : Constructed second) (h1 : NoOverlap first.segments)
    (h2 : NoOverlap second.segments) :
    ∃ g, subtractMultisegmentals first second = .ok g ∧ (g = first.toGeom ∨ LinearResult g) ∧
      linPts g = reg (segsPts first.segments \ segsPts second.segments) ∧ NoOverlap (geomSegs g) ∧
      (WellJoined first.segments → WellJoined second.segments → WellJoined (geomSegs g)) := by
  have t1 := (multisegmental_tight hc1).1
  have t2 := (multisegmental_tight hc2).1
  have fin : (∃ F : List Point, ∀ q ∉ F, q ∈ segsPts first.segments → q ∉ segsPts second.segments) →
      ∃ g, (Except.ok first.toGeom : Except Err Geom) = .ok g ∧ (g = first.toGeom ∨ LinearResult g) ∧
      linPts g = reg (segsPts first.segments \ segsPts second.segments) ∧ NoOverlap (geomSegs g) ∧
      (WellJoined first.segments → WellJoined second.segments → WellJoined (geomSegs g)) := by
    intro h
    refine ⟨_, rfl, Or.inl rfl, ?_, ?_, ?_⟩
    · unfold linPts; rw [geomSegs_toGeom]; exact reg_diff_self h1 h
    · rw [geomSegs_toGeom]; exact h1
    · rw [geomSegs_toGeom]; exact fun w _ => w
  unfold subtractMultisegmentals
  simp only
  by_cases k1 : doBoxesHaveNoCommonContinuum first.boundingBox second.boundingBox = true
  · rw [if_pos k1]
    exact fin (exceptional_of_atMostOne (atMostOne_boxes t1 t2 k1))
  rw [if_neg k1]
  by_cases k2 : first.segments.filter (fun s => doBoxesHaveCommonContinuum s.boundingBox second.boundingBox) = []
  · rw [if_pos k2]
    exact fin (finite_of_nil t2 k2)
  rw [if_neg k2]
  by_cases k3 : second.segments.filter (fun s => doBoxesHaveCommonContinuum s.boundingBox first.boundingBox) = []
  · rw [if_pos k3]
    obtain ⟨F, hF⟩ := finite_of_nil t1 k3
    exact fin ⟨F, fun q hq u v => hF q hq v u⟩
  rw [if_neg k3]
  obtain ⟨g, e, r1, r2, r3, r4⟩ := collectMaybe_result (difference_list h1 h2 t1 t2
    (fun s hs => listMin_le (List.mem_map_of_mem (f := fun s : Segment => s.boundingBox.minX) hs))
    (fun s hs => le_listMax (List.mem_map_of_mem (f := fun s : Segment => s.boundingBox.maxX) hs))) h1 h2
  exact ⟨g, e, Or.inr r1, r2, r3, r4⟩

/-- C35 `^`: the regularised symmetric difference. -/
theorem C35_symmetric_subtract (hc1 : Constructed first) (hc2 : Constructed second)
    (h1 : NoOverlap first.segments) (h2 : NoOverlap second.segments) :
    ∃ g, symmetricSubtractMultisegmentals first second = .ok g ∧ LinearResult g ∧
      linPts g = reg ((segsPts first.segments \ segsPts second.segments) ∪
        (segsPts second.segments \ segsPts first.segments)) ∧ NoOverlap (geomSegs g) ∧
      (WellJoined first.segments → WellJoined second.segments → WellJoined (geomSegs g)) := by
  have t1 := (multisegmental_tight hc1).1
  have t2 := (multisegmental_tight hc2).1
  have len := segments_length hc1
  have fin : (∃ F : List Point, ∀ q ∉ F, q ∈ segsPts first.segments → q ∉ segsPts second.segments) →
      (∀ P, Sep P → first.segments.Pairwise P → second.segments.Pairwise P →
      (first.segments ++ second.segments).Pairwise P) →
      ∃ g, newMultisegment (first.segments ++ second.segments) = .ok g ∧ LinearResult g ∧
      linPts g = reg ((segsPts first.segments \ segsPts second.segments) ∪
        (segsPts second.segments \ segsPts first.segments)) ∧ NoOverlap (geomSegs g) ∧
      (WellJoined first.segments → WellJoined second.segments → WellJoined (geomSegs g)) := by
    intro h hp
    obtain ⟨g, e, k1, _, k3, k4, k5⟩ := unite_append h1 h2 (by omega) hp
    exact ⟨g, e, k1, by unfold linPts; rw [k3]; exact reg_symm_append h1 h2 h, k4, k5⟩
  unfold symmetricSubtractMultisegmentals
  simp only
  by_cases k1 : doBoxesHaveNoCommonContinuum first.boundingBox second.boundingBox = true
  · rw [if_pos k1]
    exact fin (exceptional_of_atMostOne (atMostOne_boxes t1 t2 k1))
      fun P hP => pairwise_append_boxes hP h1.1 t1 t2 k1
  rw [if_neg k1]
  by_cases k2 : first.segments.filter (fun s => doBoxesHaveCommonContinuum s.boundingBox second.boundingBox) = []
  · rw [if_pos k2]
    exact fin (finite_of_nil t2 k2) fun P hP => pairwise_of_nil hP h1 t2 k2
  rw [if_neg k2]
  by_cases k3 : second.segments.filter (fun s => doBoxesHaveCommonContinuum s.boundingBox first.boundingBox) = []
  · rw [if_pos k3]
    obtain ⟨F, hF⟩ := finite_of_nil t1 k3
    exact fin ⟨F, fun q hq u v => hF q hq v u⟩
      fun P hP p1 p2 => pairwise_comm hP (pairwise_of_nil hP h2 t1 k3 p2 p1)
  rw [if_neg k3]
  exact collectMaybe_result (symmetric_list h1 h2 t1 t2) h1 h2

/-! ### A segment with a multisegmental -/

variable {s : Segment} {m : Multisegmental}

theorem noOverlap_single (h : s.start ≠ s.end) : NoOverlap [s] := ⟨by simpa using h, List.pairwise_singleton _ _⟩

theorem wellJoined_single' (h : s.start ≠ s.end) : WellJoined [s] := ⟨by simpa using h, List.pairwise_singleton _ _⟩

theorem single_box : segsPts [s] ⊆ boxPts s.boundingBox := by
  rw [segsPts_single]; exact segPts_subset_boundingBox s

theorem filter_single {b : Box} (h : ¬ doBoxesHaveNoCommonContinuum s.boundingBox b = true) :
    [s].filter (fun s => doBoxesHaveCommonContinuum s.boundingBox b) = [s] ∧
    [s].filter (fun s => !doBoxesHaveCommonContinuum s.boundingBox b) = [] := by
  have : doBoxesHaveCommonContinuum s.boundingBox b = true := by rw [continuum_compl]; simpa using h
  simp [this]

/-- C35 `segment - multisegmental`: the regularised difference. -/
theorem C35_subtract_from_segment (hs : s.start ≠ s.end) (hc : Constructed m) (hm : NoOverlap m.segments) :
    ∃ g, subtractMultisegmentalFromSegment s m = .ok g ∧ LinearResult g ∧
      linPts g = reg (segPts s \ segsPts m.segments) ∧ NoOverlap (geomSegs g) ∧
      (WellJoined m.segments → WellJoined (geomSegs g)) := by
  have t2 := (multisegmental_tight hc).1
  have h1 := noOverlap_single hs
  have fin : (∃ F : List Point, ∀ q ∉ F, q ∈ segsPts [s] → q ∉ segsPts m.segments) →
      ∃ g, (Except.ok (.segment s) : Except Err Geom) = .ok g ∧ LinearResult g ∧
      linPts g = reg (segPts s \ segsPts m.segments) ∧ NoOverlap (geomSegs g) ∧
      (WellJoined m.segments → WellJoined (geomSegs g)) := by
    intro h
    refine ⟨_, rfl, Or.inr (Or.inl ⟨_, rfl⟩), ?_, h1, fun _ => wellJoined_single' hs⟩
    have := reg_diff_self h1 h
    rw [segsPts_single] at this
    show segsPts [s] = _
    rw [segsPts_single]; exact this
  unfold subtractMultisegmentalFromSegment
  simp only
  by_cases k1 : doBoxesHaveNoCommonContinuum s.boundingBox m.boundingBox = true
  · rw [if_pos k1]
    exact fin (exceptional_of_atMostOne (atMostOne_boxes single_box t2 k1))
  rw [if_neg k1]
  by_cases k3 : m.segments.filter (fun t => doBoxesHaveCommonContinuum t.boundingBox s.boundingBox) = []
  · rw [if_pos k3]
    obtain ⟨F, hF⟩ := finite_of_nil (single_box (s := s)) k3
    exact fin ⟨F, fun q hq u v => hF q hq v u⟩
  rw [if_neg k3]
  obtain ⟨f1, f2⟩ := filter_single k1
  have r := difference_list (A := [s]) (a := s.boundingBox) (lo := s.boundingBox.minX)
    (hi := s.boundingBox.maxX) h1 hm single_box t2
    (fun t ht => by rw [f1] at ht; rw [List.mem_singleton.mp ht])
    (fun t ht => by rw [f1] at ht; rw [List.mem_singleton.mp ht])
  rw [f1, f2, List.append_nil, segsPts_single] at r
  obtain ⟨g, e, r1, r2, r3, r4⟩ := collectMaybe_result r h1 hm
  exact ⟨g, e, r1, r2, r3, fun w => r4 (wellJoined_single' hs) w⟩

/-- C35 `segment ^ multisegmental`. -/
theorem C35_symmetric_subtract_from_segment (hs : s.start ≠ s.end) (hc : Constructed m)
    (hm : NoOverlap m.segments) :
    ∃ g, symmetricSubtractMultisegmentalFromSegment s m = .ok g ∧ LinearResult g ∧
      linPts g = reg ((segPts s \ segsPts m.segments) ∪ (segsPts m.segments \ segPts s)) ∧
      NoOverlap (geomSegs g) ∧ (WellJoined m.segments → WellJoined (geomSegs g)) := by
  have t2 := (multisegmental_tight hc).1
  have h1 := noOverlap_single hs
  have len := segments_length hc
  have fin : (∃ F : List Point, ∀ q ∉ F, q ∈ segsPts [s] → q ∉ segsPts m.segments) →
      (∀ P, Sep P → [s].Pairwise P → m.segments.Pairwise P → ([s] ++ m.segments).Pairwise P) →
      ∃ g, newMultisegment ([s] ++ m.segments) = .ok g ∧ LinearResult g ∧
      linPts g = reg ((segPts s \ segsPts m.segments) ∪ (segsPts m.segments \ segPts s)) ∧
      NoOverlap (geomSegs g) ∧ (WellJoined m.segments → WellJoined (geomSegs g)) := by
    intro h hp
    obtain ⟨g, e, k1, _, k3, k4, k5⟩ := unite_append h1 hm (by omega) hp
    refine ⟨g, e, k1, ?_, k4, fun w => k5 (wellJoined_single' hs) w⟩
    unfold linPts
    rw [k3, reg_symm_append h1 hm h, segsPts_single]
  unfold symmetricSubtractMultisegmentalFromSegment
  simp only
  by_cases k1 : doBoxesHaveNoCommonContinuum s.boundingBox m.boundingBox = true
  · rw [if_pos k1]
    exact fin (exceptional_of_atMostOne (atMostOne_boxes single_box t2 k1))
      fun P hP => pairwise_append_boxes hP h1.1 single_box t2 k1
  rw [if_neg k1]
  by_cases k3 : m.segments.filter (fun t => doBoxesHaveCommonContinuum t.boundingBox s.boundingBox) = []
  · rw [if_pos k3]
    obtain ⟨F, hF⟩ := finite_of_nil (single_box (s := s)) k3
    exact fin ⟨F, fun q hq u v => hF q hq v u⟩
      fun P hP p1 p2 => pairwise_comm hP (pairwise_of_nil hP hm single_box k3 p2 p1)
  rw [if_neg k3]
  obtain ⟨f1, f2⟩ := filter_single k1
  have r := symmetric_list (A := [s]) (a := s.boundingBox) h1 hm single_box t2
  rw [f1, f2, List.append_nil, segsPts_single] at r
  obtain ⟨g, e, r1, r2, r3, r4⟩ := collectMaybe_result r h1 hm
  exact ⟨g, e, r1, r2, r3, fun w => r4 (wellJoined_single' hs) w⟩

/-- C35 `multisegmental ^ segment`. -/
theorem C35_symmetric_subtract_segment (hs : s.start ≠ s.end) (hc : Constructed m)
    (hm : NoOverlap m.segments) :
    ∃ g, symmetricSubtractSegmentFromMultisegmental m s = .ok g ∧ LinearResult g ∧
      linPts g = reg ((segsPts m.segments \ segPts s) ∪ (segPts s \ segsPts m.segments)) ∧
      NoOverlap (geomSegs g) ∧ (WellJoined m.segments → WellJoined (geomSegs g)) := by
  have t2 := (multisegmental_tight hc).1
  have h1 := noOverlap_single hs
  have len := segments_length hc
  have fin : (∃ F : List Point, ∀ q ∉ F, q ∈ segsPts m.segments → q ∉ segsPts [s]) →
      (∀ P, Sep P → m.segments.Pairwise P → [s].Pairwise P → (m.segments ++ [s]).Pairwise P) →
      ∃ g, newMultisegment (m.segments ++ [s]) = .ok g ∧ LinearResult g ∧
      linPts g = reg ((segsPts m.segments \ segPts s) ∪ (segPts s \ segsPts m.segments)) ∧
      NoOverlap (geomSegs g) ∧ (WellJoined m.segments → WellJoined (geomSegs g)) := by
    intro h hp
    obtain ⟨g, e, k1, _, k3, k4, k5⟩ := unite_append hm h1 (by omega) hp
    refine ⟨g, e, k1, ?_, k4, fun w => k5 w (wellJoined_single' hs)⟩
    unfold linPts
    rw [k3, reg_symm_append hm h1 h, segsPts_single]
  unfold symmetricSubtractSegmentFromMultisegmental
  simp only
  by_cases k1 : doBoxesHaveNoCommonContinuum m.boundingBox s.boundingBox = true
  · rw [if_pos k1]
    exact fin (exceptional_of_atMostOne (atMostOne_boxes t2 single_box k1))
      fun P hP => pairwise_append_boxes hP hm.1 t2 single_box k1
  rw [if_neg k1]
  by_cases k3 : m.segments.filter (fun t => doBoxesHaveCommonContinuum t.boundingBox s.boundingBox) = []
  · rw [if_pos k3]
    exact fin (finite_of_nil (single_box (s := s)) k3)
      fun P hP => pairwise_of_nil hP hm single_box k3
  rw [if_neg k3]
  rw [noCommonContinuum_comm] at k1
  obtain ⟨f1, f2⟩ := filter_single k1
  have r := symmetric_list (B := [s]) (b := s.boundingBox) hm h1 t2 single_box
  rw [f1, f2, List.append_nil, segsPts_single] at r
  obtain ⟨g, e, r1, r2, r3, r4⟩ := collectMaybe_result r hm h1
  exact ⟨g, e, r1, r2, r3, fun w => r4 w (wellJoined_single' hs)⟩

end

section
private def exA : Multisegmental := .multisegment ⟨[⟨⟨0, 0⟩, ⟨4, 4⟩⟩, ⟨⟨6, 0⟩, ⟨10, 0⟩⟩]⟩
private def exB : Multisegmental := .contour ⟨[⟨0, 4⟩, ⟨4, 0⟩, ⟨12, 0⟩]⟩

example : Constructed exA ∧ Constructed exB ∧ NoOverlap exA.segments ∧ NoOverlap exB.segments :=
  ⟨by unfold Constructed exA; decide, by unfold Constructed exB; decide, noOverlap_of_empty (by decide +kernel), noOverlap_of_empty (by decide +kernel)⟩

example : intersectMultisegmentals exA exB = .ok (.segment ⟨⟨6, 0⟩, ⟨10, 0⟩⟩) ∧
    subtractMultisegmentals exA exB = .ok (.multisegment ⟨[⟨⟨0, 0⟩, ⟨2, 2⟩⟩, ⟨⟨2, 2⟩, ⟨3, 3⟩⟩, ⟨⟨3, 3⟩, ⟨4, 4⟩⟩]⟩) := by
  decide +kernel
end

end Rene
