import Verif.Model.SegmentRelate
import Verif.Lemmas.Relating
import Verif.Props.Regions

/-! `relate_to_region`: the relation to the border and the indexed location. -/

namespace Rene
open Spec

theorem locateInRegionIndexed_snd (p : Point) : ∀ (l : List Segment) (i : Nat) (r : Bool),
    (locateInRegionIndexed p i r l).2 = locateInEdges p r l := by
  intro l
  induction l with
  | nil => intro i r; rfl
  | cons e l ih =>
    intro i r
    rw [locateInRegionIndexed, locateInEdges]
    have hcr : crossesRay e.start e.end p = true ↔ (decide (e.start.y > p.y) ≠ decide (e.end.y > p.y) ∧
        decide (e.end.y > e.start.y) = decide (orient e.start e.end p = .counterclockwise)) := by
      unfold crossesRay; simp
    by_cases h1 : locatePointInSegment e.start e.end p = .boundary
    · rw [if_pos h1, if_pos h1]
    · rw [if_neg h1, if_neg h1]
      split
      · next h => rw [ih, if_pos (hcr.mpr h)]
      · next h => rw [ih, if_neg (fun h' => h (hcr.mp h'))]

theorem locateInRegionIndexed_fst (p : Point) : ∀ (l : List Segment) (i : Nat) (r : Bool),
    (locateInRegionIndexed p i r l).2 = .boundary → ∃ j, (locateInRegionIndexed p i r l).1 = some j := by
  intro l
  induction l with
  | nil => intro i r h; cases r <;> cases h
  | cons e l ih =>
    intro i r h
    rw [locateInRegionIndexed] at h ⊢
    by_cases h1 : locatePointInSegment e.start e.end p = .boundary
    · rw [if_pos h1]; exact ⟨i, rfl⟩
    · rw [if_neg h1] at h ⊢
      split at h
      · next h2 => rw [if_pos h2]; exact ih _ _ h
      · next h2 => rw [if_neg h2]; exact ih _ _ h

/-- What the loop over the border gives. -/
def BorderPost (a b : Point) (l : List Segment) (ht ho : Bool) :
    Relation ⊕ (Bool × Bool × Option (Nat × Point)) → Prop
  | .inl r => (r = .component ∧ ∃ e ∈ l, seg a b ⊆ segPts e) ∨ (r = .cross ∧ (seg a b ∩ segsPts l).Nonempty)
  | .inr (ht', ho', last) => (ht' = true → last ≠ none) ∧
      ((ht' = false ∧ ho' = false) ↔ ht = false ∧ ho = false ∧ seg a b ∩ segsPts l = ∅) ∧
      (∀ e ∈ l, ¬ seg a b ⊆ segPts e)

theorem BorderPost.cons {a b : Point} {l : List Segment} {e : Segment} {ht ho ht1 ho1 : Bool}
    {x : Relation ⊕ (Bool × Bool × Option (Nat × Point))} (h : BorderPost a b l ht1 ho1 x)
    (he : (ht1 = false ∧ ho1 = false) ↔ ht = false ∧ ho = false ∧ seg a b ∩ segPts e = ∅)
    (hs : ¬ seg a b ⊆ segPts e) : BorderPost a b (e :: l) ht ho x := by
  rcases x with r | ⟨ht', ho', last⟩
  · rcases h with ⟨h1, e', he', h2⟩ | ⟨h1, p, h2, h3⟩
    · exact Or.inl ⟨h1, e', List.mem_cons_of_mem _ he', h2⟩
    · refine Or.inr ⟨h1, p, h2, ?_⟩
      rw [segsPts_cons]; exact Or.inr h3
  · refine ⟨h.1, ?_, ?_⟩
    · rw [h.2.1, segsPts_cons, Set.inter_union_distrib_left, Set.union_empty_iff]
      tauto
    · intro e' he'
      rcases List.mem_cons.mp he' with rfl | he'
      · exact hs
      · exact h.2.2 e' he'

theorem regionBorderLoop_spec {a b : Point} (hab : a ≠ b) : ∀ (l : List Segment) (i : Nat) (ht ho : Bool)
    (last : Option (Nat × Point)), (∀ e ∈ l, e.start ≠ e.end) → (ht = true → last ≠ none) →
    ∃ x, regionBorderLoop a b i ht ho last l = .ok x ∧ BorderPost a b l ht ho x := by
  intro l
  induction l with
  | nil =>
    intro i ht ho last _ hl
    exact ⟨.inr (ht, ho, last), rfl, hl, by simp [segsPts_nil], by simp⟩
  | cons e l ih =>
    intro i ht ho last hne hl
    have hne' : ∀ e ∈ l, e.start ≠ e.end := fun e' he' => hne e' (List.mem_cons_of_mem _ he')
    have hr := relate_sound (hne e List.mem_cons_self) hab
    have hmeet : (seg a b ∩ segPts e).Nonempty → (seg a b ∩ segsPts (e :: l)).Nonempty := by
      rintro ⟨p, hp, hp'⟩; exact ⟨p, hp, by rw [segsPts_cons]; exact Or.inl hp'⟩
    have hbig : ¬ AtMostOne (seg a b ∩ segPts e) → seg a b ∩ segPts e ≠ ∅ := by
      intro h h'; apply h; rw [h']; intro p hp; exact absurd hp (by simp)
    rw [regionBorderLoop.eq_def]
    simp only
    rcases hrel : relateToSegmentEndpoints e.start e.end a b <;> rw [hrel] at hr <;> try exact hr.elim
    · -- component
      obtain ⟨x, hx, hp⟩ := ih (i + 1) ht true last hne' hl
      refine ⟨x, hx, hp.cons ?_ ?_⟩
      · have : seg a b ∩ segPts e ≠ ∅ := by
          apply hbig
          have : segPts e ⊆ seg a b := hr.1
          rw [Set.inter_eq_right.mpr this]
          exact not_atMostOne_seg (hne e List.mem_cons_self)
        simp [this]
      · exact fun h => hr.2 h
    · -- composite
      exact ⟨_, rfl, Or.inl ⟨rfl, e, List.mem_cons_self, hr.1⟩⟩
    · -- cross
      obtain ⟨p, hp, -⟩ := hr
      refine ⟨_, rfl, Or.inr ⟨rfl, hmeet ⟨p, ?_⟩⟩⟩
      have : p ∈ seg e.start e.end ∩ seg a b := by rw [hp]; rfl
      exact ⟨this.2, this.1⟩
    · -- disjoint
      obtain ⟨x, hx, hp⟩ := ih (i + 1) ht ho last hne' hl
      have h0 : seg a b ∩ segPts e = ∅ := by rw [Set.inter_comm]; exact hr
      refine ⟨x, hx, hp.cons (by simp [h0]) ?_⟩
      intro h
      rw [Set.inter_eq_left.mpr h] at h0
      exact absurd (start_mem_seg a b) (by rw [h0]; simp)
    · -- equal
      exact ⟨_, rfl, Or.inl ⟨rfl, e, List.mem_cons_self, (show segPts e = seg a b from hr).ge⟩⟩
    · -- overlap
      obtain ⟨x, hx, hp⟩ := ih (i + 1) ht true last hne' hl
      refine ⟨x, hx, hp.cons ?_ hr.2.1⟩
      have : seg a b ∩ segPts e ≠ ∅ := hbig (by rw [Set.inter_comm]; exact hr.2.2)
      simp [this]
    · -- touch
      have hm : (seg a b ∩ segPts e).Nonempty := by
        obtain ⟨p, hp, -⟩ := hr
        have : p ∈ seg e.start e.end ∩ seg a b := by rw [hp]; rfl
        exact ⟨p, this.2, this.1⟩
      have hs : ¬ seg a b ⊆ segPts e := by
        intro h
        obtain ⟨p, hp, -⟩ := hr
        have := not_atMostOne_seg hab
        rw [Set.inter_comm, Set.inter_eq_left.mpr (show seg a b ⊆ seg e.start e.end from h)] at hp
        rw [hp] at this
        exact this (atMostOne_singleton p)
      have step : ∃ x, regionBorderLoop a b (i + 1) true ho (some (i, e.start)) l = .ok x ∧
          BorderPost a b (e :: l) ht ho x := by
        obtain ⟨x, hx, hp⟩ := ih (i + 1) true ho (some (i, e.start)) hne' (by simp)
        exact ⟨x, hx, hp.cons (by simp [hm.ne_empty]) hs⟩
      simp only
      by_cases h1 : ht = true
      · rw [if_pos h1]
        rcases last with _ | ⟨li, ls⟩
        · exact absurd rfl (hl h1)
        · simp only
          split
          · exact ⟨_, rfl, Or.inr ⟨rfl, hmeet hm⟩⟩
          · exact step
      · rw [if_neg h1]; exact step

theorem relateToRegionBorder_spec {a b : Point} (hab : a ≠ b) {l : List Segment} (hl : l ≠ [])
    (hne : ∀ e ∈ l, e.start ≠ e.end) : ∃ r, relateToRegionBorder a b l = .ok r ∧
      (r = .disjoint ↔ seg a b ∩ segsPts l = ∅) ∧ (r = .component → ∃ e ∈ l, seg a b ⊆ segPts e) ∧
      ((∃ e ∈ l, seg a b ⊆ segPts e) → r = .component ∨ r = .cross) ∧
      (r = .component ∨ r = .cross ∨ r = .overlap ∨ r = .touch ∨ r = .disjoint) := by
  obtain ⟨x, hx, hp⟩ := regionBorderLoop_spec hab l 0 false false none hne (by simp)
  unfold relateToRegionBorder
  rw [hx]
  rcases x with r | ⟨ht, ho, last⟩
  · refine ⟨r, rfl, ?_, ?_, ?_, ?_⟩
    · rcases hp with ⟨rfl, e, he, h⟩ | ⟨rfl, h⟩
      · refine ⟨fun h => (by cases h), fun h' => ?_⟩
        have : a ∈ seg a b ∩ segsPts l := ⟨start_mem_seg a b, e, he, h (start_mem_seg a b)⟩
        rw [h'] at this; exact this.elim
      · exact ⟨fun h => (by cases h), fun h' => absurd h' h.ne_empty⟩
    · rcases hp with ⟨rfl, h⟩ | ⟨rfl, h⟩
      · exact fun _ => h
      · exact fun h => by cases h
    · intro _; rcases hp with ⟨rfl, h⟩ | ⟨rfl, h⟩ <;> simp
    · rcases hp with ⟨rfl, h⟩ | ⟨rfl, h⟩ <;> simp
  · obtain ⟨h1, h2, h3⟩ := hp
    have hrest : ∀ r : Relation, (r = .cross ∧ ht = true) ∨
        r = (if ho then .overlap else if ht then .touch else .disjoint : Relation) →
        (r = .disjoint ↔ seg a b ∩ segsPts l = ∅) ∧ (r = .component → ∃ e ∈ l, seg a b ⊆ segPts e) ∧
      ((∃ e ∈ l, seg a b ⊆ segPts e) → r = .component ∨ r = .cross) ∧
        (r = .component ∨ r = .cross ∨ r = .overlap ∨ r = .touch ∨ r = .disjoint) := by
      have hcomp : ∀ r : Relation, (∃ e ∈ l, seg a b ⊆ segPts e) → r = .component ∨ r = .cross :=
        fun r ⟨e, he, h⟩ => absurd h (h3 e he)
      simp only [true_and] at h2
      rintro r (⟨rfl, h⟩ | rfl)
      · refine ⟨?_, fun h => (by cases h), hcomp _, by simp⟩
        rw [← h2]; simp [h]
      · refine ⟨?_, ?_, hcomp _, ?_⟩
        · rw [← h2]; cases ht <;> cases ho <;> simp
        · cases ht <;> cases ho <;> simp
        · cases ht <;> cases ho <;> simp
    simp only [bind, Except.bind]
    by_cases hc : ht = true ∧ last.map Prod.fst = some (l.length - 1)
    · rw [if_pos hc]
      obtain ⟨f, hf⟩ : ∃ f, l.head? = some f := by
        cases l with
        | nil => exact absurd rfl hl
        | cons f l => exact ⟨f, rfl⟩
      obtain ⟨g, hg⟩ : ∃ g, l.getLast? = some g := by
        exact ⟨_, List.getLast?_eq_getLast_of_ne_nil hl⟩
      rw [hf, hg]
      simp only
      split
      · exact ⟨_, rfl, hrest _ (Or.inl ⟨rfl, hc.1⟩)⟩
      · exact ⟨_, rfl, hrest _ (Or.inr rfl)⟩
    · rw [if_neg hc]
      exact ⟨_, rfl, hrest _ (Or.inr rfl)⟩

/-- What `relate_to_region` answers. -/
theorem relateToRegion_spec {a b : Point} (hab : a ≠ b) {c : Contour} (hc : c.segments ≠ [])
    (hne : ∀ e ∈ c.segments, e.start ≠ e.end) (reverse : Bool) : ∃ r, relateToRegion a b c reverse = .ok r ∧
      (r = .disjoint ↔ seg a b ∩ contourPts c = ∅ ∧ locatePointInRegion c a = .exterior) ∧
      (r = .within ↔ seg a b ∩ contourPts c = ∅ ∧ locatePointInRegion c a = .interior) ∧
      (r = .component → ∃ e ∈ c.segments, seg a b ⊆ segPts e) ∧
      ((∃ e ∈ c.segments, seg a b ⊆ segPts e) → r = .component ∨ r = .cross) ∧
      (r = .component ∨ r = .cross ∨ r = .enclosed ∨ r = .touch ∨ r = .disjoint ∨ r = .within) := by
  obtain ⟨r, hr, h1, h2, h3, h4⟩ := relateToRegionBorder_spec hab hc hne
  have hloc : ∀ p, (locateInRegionIndexed p 0 false c.segments).2 = locatePointInRegion c p :=
    fun p => locateInRegionIndexed_snd p c.segments 0 false
  have hcp : contourPts c = segsPts c.segments := rfl
  rw [hcp, ← h1]
  unfold relateToRegion
  simp only [hr, bind, Except.bind]
  have key : ∀ r' : Relation, r ≠ .component → r ≠ .cross →  r ≠ .disjoint → r' = .touch ∨ r' = .enclosed →
      (r' = .disjoint ↔ r = .disjoint ∧ locatePointInRegion c a = .exterior) ∧
      (r' = .within ↔ r = .disjoint ∧ locatePointInRegion c a = .interior) ∧
      (r' = .component → ∃ e ∈ c.segments, seg a b ⊆ segPts e) ∧
      ((∃ e ∈ c.segments, seg a b ⊆ segPts e) → r' = .component ∨ r' = .cross) ∧
      (r' = .component ∨ r' = .cross ∨ r' = .enclosed ∨ r' = .touch ∨ r' = .disjoint ∨ r' = .within) := by
    intro r' n1 n2 n3 h
    have hh : (∃ e ∈ c.segments, seg a b ⊆ segPts e) → r' = .component ∨ r' = .cross := by
      intro h; rcases h3 h with h | h
      · exact absurd h n1
      · exact absurd h n2
    refine ⟨?_, ?_, ?_, hh, ?_⟩ <;> rcases h with rfl | rfl <;> simp [n3]
  have rest : r ≠ .component → r ≠ .cross → ∃ r',
      (match locateInRegionIndexed a 0 false c.segments with
    | (startIndex, startLocation) =>
      if r = .disjoint then pure (if startLocation = .exterior then .disjoint else .within)
      else if startLocation = .exterior then pure .touch
      else if startLocation = .interior then pure .enclosed
      else match startIndex with
        | none => throw .assertionError
        | some i =>
          match locateInRegionIndexed b 0 false c.segments with
          | (endIndex, endLocation) =>
            if endLocation = .exterior then pure .touch
            else if endLocation = .interior then pure .enclosed
            else match endIndex with
              | none => throw .assertionError
              | some j =>
                if startLeavesRegion c.segments reverse i a b then pure .touch
                else if endLeavesRegion c.segments reverse j b a then pure .touch
                else pure .enclosed : Except Err Relation) = .ok r' ∧
      (r' = .disjoint ↔ r = .disjoint ∧ locatePointInRegion c a = .exterior) ∧
      (r' = .within ↔ r = .disjoint ∧ locatePointInRegion c a = .interior) ∧
      (r' = .component → ∃ e ∈ c.segments, seg a b ⊆ segPts e) ∧
      ((∃ e ∈ c.segments, seg a b ⊆ segPts e) → r' = .component ∨ r' = .cross) ∧
      (r' = .component ∨ r' = .cross ∨ r' = .enclosed ∨ r' = .touch ∨ r' = .disjoint ∨ r' = .within) := by
    intro n1 n2
    have hla := hloc a
    have hlb := hloc b
    have hfa := locateInRegionIndexed_fst a c.segments 0 false
    have hfb := locateInRegionIndexed_fst b c.segments 0 false
    rcases hA : locateInRegionIndexed a 0 false c.segments with ⟨ia, la⟩
    rcases hB : locateInRegionIndexed b 0 false c.segments with ⟨ib, lb⟩
    rw [hA] at hla hfa
    rw [hB] at hlb hfb
    simp only at hla hlb hfa hfb ⊢
    by_cases hd : r = .disjoint
    · rw [if_pos hd]
      refine ⟨_, rfl, ?_⟩
      have hnb : la ≠ .boundary := by
        intro h
        rw [h] at hla
        have := (C22_region_boundary c a).mp hla.symm
        have h0 : a ∈ seg a b ∩ segsPts c.segments := ⟨start_mem_seg a b, this⟩
        rw [h1.mp hd] at h0
        exact h0.elim
      rw [← hla]
      have hh : ∀ r' : Relation, (∃ e ∈ c.segments, seg a b ⊆ segPts e) → r' = .component ∨ r' = .cross := by
        intro r' h; rcases h3 h with h | h
        · exact absurd h n1
        · exact absurd h n2
      clear hla hfa hA h3 h1 key hloc hfb hB hlb
      refine ⟨?_, ?_, ?_, hh _, ?_⟩ <;> cases la <;> simp_all
    · rw [if_neg hd]
      cases la with
      | exterior => exact ⟨_, rfl, key _ n1 n2 hd (Or.inl rfl)⟩
      | interior => exact ⟨_, rfl, key _ n1 n2 hd (Or.inr rfl)⟩
      | boundary =>
        obtain ⟨j, rfl⟩ := hfa rfl
        cases lb with
        | exterior => exact ⟨_, rfl, key _ n1 n2 hd (Or.inl rfl)⟩
        | interior => exact ⟨_, rfl, key _ n1 n2 hd (Or.inr rfl)⟩
        | boundary =>
          obtain ⟨k, rfl⟩ := hfb rfl
          simp only [reduceCtorEq, if_false]
          split
          · exact ⟨_, rfl, key _ n1 n2 hd (Or.inl rfl)⟩
          · split
            · exact ⟨_, rfl, key _ n1 n2 hd (Or.inl rfl)⟩
            · exact ⟨_, rfl, key _ n1 n2 hd (Or.inr rfl)⟩
  rcases h4 with rfl | rfl | rfl | rfl | rfl
  · exact ⟨_, rfl, by simp, by simp, fun _ => h2 rfl, by simp, by simp⟩
  · exact ⟨_, rfl, by simp, by simp, by simp, by simp, by simp⟩
  · exact rest (by simp) (by simp)
  · exact rest (by simp) (by simp)
  · exact rest (by simp) (by simp)

end Rene
