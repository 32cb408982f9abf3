import Verif.Lemmas.Sweep.ShpClass

/-! # The updates of the state of the relation of two shapes -/

namespace Rene.Sweep
open Rene.Face Finset Spec

/-- The flag of being a subset. -/
def sSub (st : ShapedState) (b : Bool) : Bool := if b then st.firstIsSubset else st.secondIsSubset

/-- The flag of the boundary in the interior of the other operand. -/
def sBd (st : ShapedState) (b : Bool) : Bool :=
  if b then st.firstBoundaryIntersectsSecondInterior else st.secondBoundaryIntersectsFirstInterior

/-- The state takes a segment of a kind into account. -/
def SAcc (st : ShapedState) (o : Bool) : EventKind → Prop
  | .inside => st.hasContinuousIntersection = true ∧ sBd st o = true ∧ sSub st (!o) = false
  | .outside => sSub st o = false
  | .commonPolylineSegment => sSub st o = false
  | .commonRegionEdge => st.hasContinuousIntersection = true

/-- The interiors meet and none of the operands is a part of the other one. -/
def Broken (st : ShapedState) : Prop := st.hasContinuousIntersection = true ∧ ∀ b, sSub st b = false

/-- States only change in one direction. -/
structure Le (st st' : ShapedState) : Prop where
  cont : st.hasContinuousIntersection = true → st'.hasContinuousIntersection = true
  sub : ∀ b, sSub st b = false → sSub st' b = false
  bd : ∀ b, sBd st b = true → sBd st' b = true
  bi : st.boundariesIntersect = true → st'.boundariesIntersect = true
  ok : st'.ok = true → st.ok = true

theorem Le.refl (st : ShapedState) : Le st st := ⟨id, fun _ => id, fun _ => id, id, id⟩

theorem Le.trans {s1 s2 s3 : ShapedState} (h : Le s1 s2) (h' : Le s2 s3) : Le s1 s3 :=
  ⟨fun k => h'.cont (h.cont k), fun b k => h'.sub b (h.sub b k), fun b k => h'.bd b (h.bd b k), fun k => h'.bi (h.bi k),
    fun k => h.ok (h'.ok k)⟩

theorem SAcc.le {st st' : ShapedState} (h : Le st st') {o : Bool} {k : EventKind} (ha : SAcc st o k) : SAcc st' o k := by
  cases k with
  | inside => exact ⟨h.cont ha.1, h.bd _ ha.2.1, h.sub _ ha.2.2⟩
  | outside => exact h.sub _ ha
  | commonPolylineSegment => exact h.sub _ ha
  | commonRegionEdge => exact h.cont ha

theorem Broken.le {st st' : ShapedState} (h : Le st st') (hb : Broken st) : Broken st' :=
  ⟨h.cont hb.1, fun b => h.sub b (hb.2 b)⟩

/-- What justifies the flags. -/
structure Snd (Ev : Bool → EventKind → Prop) (B : Prop) (s0 st : ShapedState) : Prop where
  sub : ∀ b, sSub st b = false → sSub s0 b = false ∨ ∃ o k, Ev o k ∧ EvOut b o k
  cont : st.hasContinuousIntersection = true → ∃ o k, Ev o k ∧ (k = .inside ∨ k = .commonRegionEdge)
  bd : ∀ b, sBd st b = true → Ev b .inside
  bi : st.boundariesIntersect = true → B
  ok : st.ok = true

theorem inside_fields (st : ShapedState) (o : Bool) :
    (st.inside o).hasContinuousIntersection = true ∧ (∀ b, sBd (st.inside o) b = (sBd st b || (b == o))) ∧
    (∀ b, sSub (st.inside o) b = (sSub st b && (b == o))) ∧ (st.inside o).boundariesIntersect = st.boundariesIntersect ∧
    (st.inside o).ok = st.ok := by
  refine ⟨?_, fun b => ?_, fun b => ?_, ?_, ?_⟩ <;> unfold ShapedState.inside <;> cases o <;> try cases b
  all_goals simp [sBd, sSub]

theorem outside_fields (st : ShapedState) (o : Bool) :
    (st.outside o).hasContinuousIntersection = st.hasContinuousIntersection ∧ (∀ b, sBd (st.outside o) b = sBd st b) ∧
    (∀ b, sSub (st.outside o) b = (sSub st b && (b != o))) ∧
    (st.outside o).boundariesIntersect = st.boundariesIntersect ∧ (st.outside o).ok = st.ok := by
  refine ⟨?_, fun b => ?_, fun b => ?_, ?_, ?_⟩ <;> unfold ShapedState.outside <;> cases o <;> try cases b
  all_goals simp [sBd, sSub]

theorem inside_spec {Ev : Bool → EventKind → Prop} {B : Prop} {s0 st : ShapedState} {o : Bool} :
    Le st (st.inside o) ∧ SAcc (st.inside o) o .inside ∧
      (Ev o .inside → Snd Ev B s0 st → Snd Ev B s0 (st.inside o)) := by
  obtain ⟨f1, f2, f3, f4, f5⟩ := inside_fields st o
  refine ⟨⟨fun _ => f1, fun b k => ?_, fun b k => ?_, fun k => ?_, fun k => ?_⟩, ⟨f1, ?_, ?_⟩, fun hE h =>
    ⟨fun b k => ?_, fun _ => ⟨o, _, hE, Or.inl rfl⟩, fun b k => ?_, fun k => ?_, ?_⟩⟩
  · rw [f3, k]; rfl
  · rw [f2, k]; rfl
  · rw [f4]; exact k
  · rw [f5] at k; exact k
  · rw [f2]; cases o <;> simp
  · rw [f3]; cases o <;> simp
  · rw [f3] at k
    by_cases w : sSub st b = false
    · exact h.sub b w
    · have w : sSub st b = true := by simpa using w
      rw [w, Bool.true_and] at k
      refine Or.inr ⟨o, _, hE, Or.inr ⟨?_, rfl⟩⟩
      revert k; cases b <;> cases o <;> simp
  · rw [f2] at k
    by_cases w : b = o
    · rw [w]; exact hE
    · refine h.bd b ?_
      rw [beq_false_of_ne w, Bool.or_false] at k
      exact k
  · rw [f4] at k; exact h.bi k
  · rw [f5]; exact h.ok

theorem outside_spec {Ev : Bool → EventKind → Prop} {B : Prop} {s0 st : ShapedState} {o : Bool} {k : EventKind}
    (hk : k = .outside ∨ k = .commonPolylineSegment) :
    Le st (st.outside o) ∧ SAcc (st.outside o) o k ∧
      (Ev o k → Snd Ev B s0 st → Snd Ev B s0 (st.outside o)) := by
  obtain ⟨f1, f2, f3, f4, f5⟩ := outside_fields st o
  refine ⟨⟨fun k => ?_, fun b k => ?_, fun b k => ?_, fun k => ?_, fun k => ?_⟩, ?_, fun hE h =>
    ⟨fun b k => ?_, fun k => ?_, fun b k => ?_, fun k => ?_, ?_⟩⟩
  · rw [f1]; exact k
  · rw [f3, k]; rfl
  · rw [f2, k]
  · rw [f4]; exact k
  · rw [f5] at k; exact k
  · have : sSub (st.outside o) o = false := by rw [f3]; cases o <;> simp
    rcases hk with rfl | rfl <;> exact this
  · rw [f3] at k
    by_cases w : sSub st b = false
    · exact h.sub b w
    · have w : sSub st b = true := by simpa using w
      rw [w, Bool.true_and] at k
      refine Or.inr ⟨o, _, hE, Or.inl ⟨?_, hk⟩⟩
      revert k; cases b <;> cases o <;> simp
  · rw [f1] at k; exact h.cont k
  · rw [f2] at k; exact h.bd b k
  · rw [f4] at k; exact h.bi k
  · rw [f5]; exact h.ok

theorem updateEvent_spec {Ev : Bool → EventKind → Prop} {B : Prop} {s0 : ShapedState} (S : Shp) (st : ShapedState) (e : ℕ) :
    Le st (st.updateEvent S e) ∧ SAcc (st.updateEvent S e) (S.lin.isFirst e) (S.classify e) ∧
      (Ev (S.lin.isFirst e) (S.classify e) → Snd Ev B s0 st → Snd Ev B s0 (st.updateEvent S e)) := by
  unfold ShapedState.updateEvent
  cases S.classify e with
  | inside => exact inside_spec
  | outside => exact outside_spec (Or.inl rfl)
  | commonPolylineSegment => exact outside_spec (Or.inr rfl)
  | commonRegionEdge =>
    refine ⟨⟨fun _ => rfl, fun _ k => k, fun _ k => k, fun k => k, fun k => k⟩, rfl, fun hE h =>
      ⟨h.sub, fun _ => ⟨_, _, hE, Or.inr rfl⟩, h.bd, h.bi, h.ok⟩⟩

theorem sfold_spec {Ev : Bool → EventKind → Prop} {B : Prop} {s0 : ShapedState} (S : Shp) :
    ∀ (l : List ℕ) (st : ShapedState), Le st (l.foldl (ShapedState.updateEvent S) st) ∧
      (∀ e ∈ l, SAcc (l.foldl (ShapedState.updateEvent S) st) (S.lin.isFirst e) (S.classify e)) ∧
      ((∀ e ∈ l, Ev (S.lin.isFirst e) (S.classify e)) → Snd Ev B s0 st →
        Snd Ev B s0 (l.foldl (ShapedState.updateEvent S) st))
  | [], st => ⟨Le.refl _, by simp, fun _ h => h⟩
  | e :: l, st => by
    obtain ⟨h1, h2, h3⟩ := updateEvent_spec (Ev := Ev) (B := B) (s0 := s0) S st e
    obtain ⟨k1, k2, k3⟩ := sfold_spec (Ev := Ev) (B := B) (s0 := s0) S l (st.updateEvent S e)
    rw [List.foldl_cons]
    refine ⟨h1.trans k1, fun x hx => ?_, fun hE h => k3 (fun x hx => hE x (by simp [hx])) (h3 (hE e (by simp)) h)⟩
    rcases List.mem_cons.mp hx with rfl | hx
    · exact h2.le k1
    · exact k2 x hx

/-- Edges of one operand inside and outside of the other one. -/
theorem hasEdgesCross_spec (S : Shp) (G : Bool → EventKind → Prop) :
    ∀ (l : List ℕ) (fs ff : Option Bool), (∀ e ∈ l, G (S.lin.isFirst e) (S.classify e)) →
      (∀ v, fs = some v → G false (if v then .inside else .outside)) →
      (∀ v, ff = some v → G true (if v then .inside else .outside)) → S.hasEdgesCross fs ff l = true →
      ∃ o, G o .inside ∧ G o .outside
  | [], fs, ff, _, _, _, h => by simp [Shp.hasEdgesCross] at h
  | e :: l, fs, ff, hG, hs, hf, h => by
    have ih := hasEdgesCross_spec S G l
    have hG' : ∀ e ∈ l, G (S.lin.isFirst e) (S.classify e) := fun x hx => hG x (by simp [hx])
    have he := hG e (by simp)
    unfold Shp.hasEdgesCross at h
    simp only at h
    by_cases hk : S.kind (S.lin.toLeft e) = .none
    · rw [if_pos hk] at h
      have hc : S.classify e = if S.other.getD (S.lin.toLeft e / 2) false then .inside else .outside := by
        unfold Shp.classify
        simp only
        rw [hk]
      have ho : S.lin.isFirst e = S.lin.leftFirst (S.lin.toLeft e) := rfl
      rw [hc, ho] at he
      generalize S.other.getD (S.lin.toLeft e / 2) false = v at h he
      have pair : ∀ o u, G o (if v then .inside else .outside) → G o (if u then .inside else .outside) → u ≠ v →
          ∃ o, G o .inside ∧ G o .outside := by
        intro o u h1 h2 hne
        refine ⟨o, ?_⟩
        cases v <;> cases u
        · exact absurd rfl hne
        · exact ⟨h2, h1⟩
        · exact ⟨h1, h2⟩
        · exact absurd rfl hne
      by_cases hl : S.lin.leftFirst (S.lin.toLeft e) = true
      · rw [if_pos hl] at h
        rw [hl] at he
        cases ff with
        | none => exact ih fs (some v) hG' hs (fun w hw => by cases hw; exact he) h
        | some u =>
          simp only at h
          by_cases hne : u ≠ v
          · exact pair true u he (hf u rfl) hne
          · rw [if_neg hne] at h
            exact ih fs (some u) hG' hs hf h
      · rw [if_neg hl] at h
        rw [bool_false hl] at he
        cases fs with
        | none => exact ih (some v) ff hG' (fun w hw => by cases hw; exact he) hf h
        | some u =>
          simp only at h
          by_cases hne : u ≠ v
          · exact pair false u he (hs u rfl) hne
          · rw [if_neg hne] at h
            exact ih (some u) ff hG' hs hf h
    · rw [if_neg hk] at h
      exact ih fs ff hG' hs hf h

end Rene.Sweep
