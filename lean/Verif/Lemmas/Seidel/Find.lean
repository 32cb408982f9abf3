import Verif.Lemmas.Seidel.Under
import Verif.Lemmas.Seidel.Start

/-! The search for the first trapezoid which an edge meets. -/

namespace Rene.Seidel
open Rene Spec
variable {g : Geo} {nodes : Nodes} {e m : ℕ}

/-- An abscissa right after the left end of an edge. -/
structure After (g : Geo) (e : ℕ) (t : ℚ) : Prop where
  l : g.xv (g.lft e) < t
  r : t < g.xv (g.rgt e)
  f : ∀ p < g.k, g.xv p ≤ g.xv (g.lft e) ∨ t < g.xv p

theorem exists_after (hg : g.Good) (he : e < g.n) : ∃ t, After g e t := by
  obtain ⟨t, h1, h2, h3⟩ := exists_right g.xs _ _ (hg.pos e he)
  exact ⟨t, h1, h2, fun p hp => h3 _ (by unfold Geo.xs; exact Finset.mem_image.mpr ⟨p, Finset.mem_range.mpr hp, rfl⟩)⟩

theorem After.free {t : ℚ} (h : After g e t) : Free g t := by
  intro i hi q
  rcases h.f i hi with a | a
  · have := h.l; linarith
  · linarith

theorem search_step (hg : g.Good) (he : e < g.n) (hm : m ≤ e) (d : Dec g m nodes) {t : ℚ} (ha : After g e t) {i : ℕ}
    {n : Node} (hw : Walk g nodes t (g.f e t) 0 i) (hn : inner nodes i = some n) :
    nxt g nodes t (g.f e t) i = some (searchEdgeNode (edgeAt g.edges e) g.edges g.endpoints nodes i) := by
  have hgn := inner_getElem hn
  cases n with
  | leaf T => have := inner_isInner hn; simp [Node.isInner] at this
  | x p l r =>
    have hp := d.xnode i p l r hn
    rw [nxt_x hn]
    unfold searchEdgeNode
    rw [hgn]
    simp only
    have h1 : (pt g.endpoints (edgeAt g.edges e).left).ltB (pt g.endpoints p) = true ↔ g.xv (g.lft e) < g.xv p := by
      rw [Point.ltB_iff]; exact hg.lt _ _ (Or.inl (hg.lft e he)) (Or.inl hp)
    by_cases hc : g.xv (g.lft e) < g.xv p
    · rw [if_pos (h1.mpr hc)]
      rcases ha.f p hp with q | q
      · linarith
      · rw [if_pos q]
    · have := ha.l
      rw [if_neg (fun q => hc (h1.mp q)), if_neg (by linarith), if_pos (by linarith)]
  | y e' b a =>
    obtain ⟨q1, q2, q3⟩ := d.soundY t _ i e' b a (edge_inBox hg he ha.l.le ha.r.le) hw hn
    have hn' : e' < g.n := by omega
    have hne : e' ≠ e := by omega
    have hl : g.xv (g.lft e') ≤ g.xv (g.lft e) := by
      rcases ha.f _ (hg.lft e' hn') with q | q
      · exact q
      · linarith
    have hu := isUnder_iff hg hn' he hne hl (by have := ha.l; linarith) ha.l ha.r q3
    rw [nxt_y hn]
    unfold searchEdgeNode
    rw [hgn]
    simp only
    by_cases hc : g.f e' t < g.f e t
    · rw [if_pos (hu.mpr hc), if_pos hc]
    · have hne2 : g.f e' t ≠ g.f e t := hg.ne (by omega) (by omega) hne (s := g.xv (g.lft e))
        (t := min (g.xv (g.rgt e')) (g.xv (g.rgt e)))
        (fun _ => ⟨hl, by have := ha.l; linarith⟩) (fun _ => ⟨hl.trans (le_min (by have := ha.l; linarith) (hg.pos e he).le), min_le_left _ _⟩)
        (fun _ => ⟨le_rfl, (hg.pos e he).le⟩) (fun _ => ⟨le_min (by have := ha.l; linarith) (hg.pos e he).le, min_le_right _ _⟩)
        ha.l (lt_min q3 ha.r)
      have : g.f e t < g.f e' t := lt_of_le_of_ne (not_lt.mp hc) hne2.symm
      rw [if_neg (fun q => hc (hu.mp q)), if_neg hc, if_pos this]

/-- An edge which is inside of a trapezoid at an abscissa is inside of it. -/
theorem midT_of (hg : g.Good) (he : e < g.n) {T : Trap} (hT : TrapOk g T) {t : ℚ} (r1 : g.xv T.left < t)
    (r2 : t < g.xv T.right) (r3 : g.xv (g.lft e) < t) (r4 : t < g.xv (g.rgt e)) (hb : g.f T.below t < g.f e t)
    (ha : g.f e t < g.f T.above t) : MidT g e T := by
  intro w w1 w2 w3 w4
  have s : ∀ x, max (g.xv T.left) (g.xv (g.lft e)) ≤ x → x ≤ min (g.xv T.right) (g.xv (g.rgt e)) → g.Sp e x :=
    fun x h1 h2 _ => ⟨(le_max_right _ _).trans h1, h2.trans (min_le_right _ _)⟩
  have sb : ∀ x, max (g.xv T.left) (g.xv (g.lft e)) ≤ x → x ≤ min (g.xv T.right) (g.xv (g.rgt e)) → g.Sp T.below x :=
    fun x h1 h2 => hT.sbl.mono hT.sbr ((le_max_left _ _).trans h1) (h2.trans (min_le_left _ _))
  have sa : ∀ x, max (g.xv T.left) (g.xv (g.lft e)) ≤ x → x ≤ min (g.xv T.right) (g.xv (g.rgt e)) → g.Sp T.above x :=
    fun x h1 h2 => hT.sal.mono hT.sar ((le_max_left _ _).trans h1) (h2.trans (min_le_left _ _))
  have l1 := max_lt r1 r3
  have l2 := lt_min r2 r4
  have l3 := max_lt w1 w3
  have l4 := lt_min w2 w4
  have hl := (l1.trans l2).le
  exact ⟨hg.ord hT.b2 (by omega) (sb _ le_rfl hl) (sb _ hl le_rfl) (s _ le_rfl hl) (s _ hl le_rfl) l1.le l2.le hb l3 l4,
    hg.ord (by omega) hT.a2 (s _ le_rfl hl) (s _ hl le_rfl) (sa _ le_rfl hl) (sa _ hl le_rfl) l1.le l2.le ha l3 l4⟩

theorem descend_leaf (hg : g.Good) (he : e < g.n) (hm : m ≤ e) (d : Dec g m nodes) {t : ℚ} (ha : After g e t)
    {rk : ℕ → ℕ} (hrk : ∀ i n, inner nodes i = some n → ∀ j ∈ n.children,
      j < nodes.length ∧ ((inner nodes j).isSome = true → rk i < rk j)) : ∀ (fuel i : ℕ),
    depthBound nodes rk i ≤ fuel → i < nodes.length → Walk g nodes t (g.f e t) 0 i →
    isLeaf nodes (descend (edgeAt g.edges e) g.edges g.endpoints nodes fuel i) = true ∧
    Walk g nodes t (g.f e t) 0 (descend (edgeAt g.edges e) g.edges g.endpoints nodes fuel i)
  | fuel, i, hb, hi, hw => by
    rcases leaf_or_inner hi with h | ⟨n, h⟩
    · have : descend (edgeAt g.edges e) g.edges g.endpoints nodes fuel i = i := by
        cases fuel with
        | zero => rfl
        | succ f =>
          have : searchEdgeNode (edgeAt g.edges e) g.edges g.endpoints nodes i = i := by
            unfold searchEdgeNode
            rw [isLeaf_iff.mp h]
          simp [descend, this]
      rw [this]; exact ⟨h, hw⟩
    · have hs := search_step hg he hm d ha hw h
      obtain ⟨n', hn', hj⟩ := nxt_child hs
      have hc := hrk i n' hn' _ hj
      have hlt := depthBound_child (rk := rk) hn' hc.2
      cases fuel with
      | zero => omega
      | succ f =>
        have hne : searchEdgeNode (edgeAt g.edges e) g.edges g.endpoints nodes i ≠ i := by
          intro q; rw [q] at hlt; exact absurd hlt (lt_irrefl _)
        simp only [descend, if_neg hne]
        exact descend_leaf hg he hm d ha hrk f _ (by omega) hc.1 (hw.tail hs)

/-- The trapezoid where the collection starts. -/
theorem descend_ok (hg : g.Good) (he : e < g.n) (hm : m ≤ e) (d : Dec g m nodes) :
    ∃ j, descend (edgeAt g.edges e) g.edges g.endpoints nodes (nodes.length - 1) 0 = j ∧ isLeaf nodes j = true ∧
      g.xv (trapAt nodes j).left ≤ g.xv (g.lft e) ∧ g.xv (g.lft e) < g.xv (trapAt nodes j).right ∧
      MidT g e (trapAt nodes j) := by
  obtain ⟨t, ha⟩ := exists_after hg he
  obtain ⟨h0, rk, hrk⟩ := d.rk
  have hb := Ranked.depthBound_lt h0 hrk 0
  obtain ⟨h1, h2⟩ := descend_leaf hg he hm d ha hrk (nodes.length - 1) 0 (by omega) h0 Relation.ReflTransGen.refl
  refine ⟨_, rfl, h1, ?_⟩
  generalize descend (edgeAt g.edges e) g.edges g.endpoints nodes (nodes.length - 1) 0 = j at h1 h2
  have hr := d.sound _ _ _ (edge_inBox hg he ha.l.le ha.r.le) h2 h1
  have hT := d.trap j h1
  obtain ⟨r1, r2, r3, r4⟩ := hr
  have hal := ha.l
  have har := ha.r
  have hL : g.xv (trapAt nodes j).left ≤ g.xv (g.lft e) := by
    rcases hT.vl with q | q | q
    · rcases ha.f _ q with w | w
      · exact w
      · linarith
    · rw [q]; exact (hg.inx _ (hg.lft e he)).1.le
    · rw [q] at r1
      have := (hg.inx _ (hg.rgt e he)).2
      linarith
  refine ⟨hL, by linarith, ?_⟩
  exact midT_of hg he hT r1 r2 hal har r3 r4

end Rene.Seidel
