import Verif.Lemmas.Seidel.Geo

/-! The leaves of the search graph decompose the box: the search leads a point to the leaf which contains it, and
this is preserved by splitting a trapezoid. -/

namespace Rene.Seidel
open Rene Spec

structure TrapOk (g : Geo) (T : Trap) : Prop where
  vl : g.V T.left
  vr : g.V T.right
  lt : g.xv T.left < g.xv T.right
  b2 : T.below < g.n + 2
  a2 : T.above < g.n + 2
  sbl : g.Sp T.below (g.xv T.left)
  sbr : g.Sp T.below (g.xv T.right)
  sal : g.Sp T.above (g.xv T.left)
  sar : g.Sp T.above (g.xv T.right)
  ord : ∀ w, g.xv T.left < w → w < g.xv T.right → g.f T.below w < g.f T.above w

structure Dec (g : Geo) (m : ℕ) (nodes : Nodes) : Prop where
  rk : Ranked nodes
  trap : ∀ i, isLeaf nodes i = true → TrapOk g (trapAt nodes i)
  sound : ∀ t y i, InBox g t y → Walk g nodes t y 0 i → isLeaf nodes i = true → Reg g (trapAt nodes i) t y
  soundY : ∀ t y i e b a, InBox g t y → Walk g nodes t y 0 i → inner nodes i = some (.y e b a) →
    e < m ∧ g.xv (g.lft e) < t ∧ t < g.xv (g.rgt e)
  edg : ∀ i, isLeaf nodes i = true → ((trapAt nodes i).above < m ∨ (trapAt nodes i).above = g.n) ∧
    ((trapAt nodes i).below < m ∨ (trapAt nodes i).below = g.n + 1)
  xnode : ∀ i p l r, inner nodes i = some (.x p l r) → p < g.k
  back : ∀ t y i, Gen g t y → isLeaf nodes i = true → Reg g (trapAt nodes i) t y → Walk g nodes t y 0 i

theorem Dec.mono {g : Geo} {m m' : ℕ} {nodes : Nodes} (h : m ≤ m') (d : Dec g m nodes) : Dec g m' nodes where
  rk := d.rk
  trap := d.trap
  sound := d.sound
  soundY := fun t y i e b a h1 h2 h3 => ⟨by have := (d.soundY t y i e b a h1 h2 h3).1; omega,
    (d.soundY t y i e b a h1 h2 h3).2⟩
  edg := fun i hi => by
    have := d.edg i hi
    exact ⟨by omega, by omega⟩
  xnode := d.xnode
  back := d.back

theorem nxt_congr {g : Geo} {nodes nodes' : Nodes} {t y : ℚ} {i : ℕ} (h : inner nodes' i = inner nodes i) :
    nxt g nodes' t y i = nxt g nodes t y i := by
  unfold nxt; rw [h]

theorem Walk.lt {g : Geo} {nodes : Nodes} (hr : Ranked nodes) {t y : ℚ} {i j : ℕ} (h : Walk g nodes t y i j)
    (hi : i < nodes.length) : j < nodes.length := by
  induction h with
  | refl => exact hi
  | tail _ hs ih =>
    obtain ⟨h0, rk, hr⟩ := hr
    obtain ⟨n, hn, hj⟩ := nxt_child hs
    exact (hr _ n hn _ hj).1

section split
variable {g : Geo} {nodes nodes' : Nodes} {e t a b la ra : ℕ} {lo ro : Option ℕ}

theorem Split.nxt_old (s : Split g.edges nodes nodes' e t a b la ra lo ro) {x y : ℚ} {i : ℕ} (hi : i < nodes.length)
    (ht : i ≠ t) : nxt g nodes' x y i = nxt g nodes x y i := nxt_congr (s.inn i hi ht)

theorem Split.lift (s : Split g.edges nodes nodes' e t a b la ra lo ro) (ht : isLeaf nodes t = true) {x y : ℚ}
    {i j : ℕ} (h : Walk g nodes x y i j) : Walk g nodes' x y i j := by
  induction h with
  | refl => exact Relation.ReflTransGen.refl
  | tail _ hs ih =>
    refine ih.tail ?_
    have h1 := nxt_child hs
    obtain ⟨n, hn, -⟩ := h1
    rw [s.nxt_old (inner_lt hn) ?_]
    · exact hs
    · rintro rfl
      rw [leaf_not_inner ht] at hn; cases hn

/-- Splitting preserves searches which stop at a node. -/
theorem Split.inner_keep (s : Split g.edges nodes nodes' e t a b la ra lo ro) (ht : isLeaf nodes t = true) {i : ℕ}
    {n : Node} (h : inner nodes i = some n) : inner nodes' i = some n := by
  rw [s.inn i (inner_lt h) ?_]
  · exact h
  · rintro rfl
    rw [leaf_not_inner ht] at h; cases h

theorem Split.walk_cases (s : Split g.edges nodes nodes' e t a b la ra lo ro) (hr : Ranked nodes) {x y : ℚ} {j : ℕ}
    (h : Walk g nodes' x y 0 j) :
    (Walk g nodes x y 0 j ∧ j ≠ t) ∨ (Walk g nodes x y 0 t ∧ Walk g nodes' x y t j) := by
  induction h with
  | refl =>
    by_cases q : 0 = t
    · right; rw [← q]; exact ⟨Relation.ReflTransGen.refl, Relation.ReflTransGen.refl⟩
    · left; exact ⟨Relation.ReflTransGen.refl, q⟩
  | @tail j j' hw hs ih =>
    rcases ih with ⟨h1, h2⟩ | ⟨h1, h2⟩
    · have hl := h1.lt hr hr.1
      rw [s.nxt_old hl h2] at hs
      have h3 := h1.tail hs
      by_cases q : j' = t
      · right; rw [← q]; exact ⟨h3, Relation.ReflTransGen.refl⟩
      · left; exact ⟨h3, q⟩
    · right; exact ⟨h1, h2.tail hs⟩

/-- How the edge lies in the trapezoid. -/
structure Cut (g : Geo) (T : Trap) (e la ra : ℕ) (lo ro : Option ℕ) : Prop where
  he : e < g.n
  vla : g.V la
  vra : g.V ra
  hl : g.xv (g.lft e) < g.xv T.right
  hr : g.xv T.left < g.xv (g.rgt e)
  lo0 : lo = none → g.xv (g.lft e) ≤ g.xv T.left ∧ g.xv la = g.xv T.left
  lo1 : ∀ l, lo = some l → g.xv T.left < g.xv (g.lft e) ∧ g.xv la = g.xv (g.lft e)
  ro0 : ro = none → g.xv T.right ≤ g.xv (g.rgt e) ∧ g.xv ra = g.xv T.right
  ro1 : ∀ l, ro = some l → g.xv (g.rgt e) < g.xv T.right ∧ g.xv ra = g.xv (g.rgt e)
  mid : ∀ w, g.xv la < w → w < g.xv ra → g.f T.below w < g.f e w ∧ g.f e w < g.f T.above w

theorem Cut.bounds (hg : g.Good) {T : Trap} (c : Cut g T e la ra lo ro) (hT : g.xv T.left < g.xv T.right) :
    g.xv la < g.xv ra ∧ g.xv T.left ≤ g.xv la ∧ g.xv ra ≤ g.xv T.right ∧ g.xv (g.lft e) ≤ g.xv la ∧
      g.xv ra ≤ g.xv (g.rgt e) := by
  have hp := hg.pos e c.he
  have h1 := c.hl
  have h2 := c.hr
  rcases hlo : lo with _ | l
  · have a1 := c.lo0 hlo
    rcases hro : ro with _ | r
    · have b1 := c.ro0 hro
      refine ⟨?_, ?_, ?_, ?_, ?_⟩ <;> linarith [a1.1, a1.2, b1.1, b1.2]
    · have b1 := c.ro1 r hro
      refine ⟨?_, ?_, ?_, ?_, ?_⟩ <;> linarith [a1.1, a1.2, b1.1, b1.2]
  · have a1 := c.lo1 l hlo
    rcases hro : ro with _ | r
    · have b1 := c.ro0 hro
      refine ⟨?_, ?_, ?_, ?_, ?_⟩ <;> linarith [a1.1, a1.2, b1.1, b1.2]
    · have b1 := c.ro1 r hro
      refine ⟨?_, ?_, ?_, ?_, ?_⟩ <;> linarith [a1.1, a1.2, b1.1, b1.2]

theorem nxt_x {nodes : Nodes} {x y : ℚ} {i p l r : ℕ} (h : inner nodes i = some (.x p l r)) :
    nxt g nodes x y i = if x < g.xv p then some l else if g.xv p < x then some r else none := by
  unfold nxt; rw [h]

theorem nxt_y {nodes : Nodes} {x y : ℚ} {i e b a : ℕ} (h : inner nodes i = some (.y e b a)) :
    nxt g nodes x y i = if g.f e x < y then some a else if y < g.f e x then some b else none := by
  unfold nxt; rw [h]

theorem Walk.one {nodes : Nodes} {x y : ℚ} {i j : ℕ} (h : nxt g nodes x y i = some j) : Walk g nodes x y i j :=
  Relation.ReflTransGen.single h

/-- The searches through the new nodes. -/
theorem Split.tree_walk (hg : g.Good) (s : Split g.edges nodes nodes' e t a b la ra lo ro) {T : Trap}
    (c : Cut g T e la ra lo ro) (hT : g.xv T.left < g.xv T.right) {x y : ℚ} :
    (∀ l, lo = some l → x < g.xv (g.lft e) → Walk g nodes' x y t l) ∧
    (∀ r, ro = some r → g.xv (g.rgt e) < x → Walk g nodes' x y t r) ∧
    (∃ q, inner nodes' q = some (.y e b a) ∧ (g.xv la < x → x < g.xv ra → Walk g nodes' x y t q)) := by
  obtain ⟨q, hq, htree⟩ := s.tree
  have hb := c.bounds hg hT
  have hp := hg.pos e c.he
  rcases htree with ⟨h1, h2, h3⟩ | ⟨l, h1, h2, h3⟩ | ⟨r, h1, h2, h3⟩ | ⟨l, r, w, h1, h2, h3, h4⟩
  · subst h1 h2 h3
    refine ⟨by simp, by simp, q, hq, fun _ _ => Relation.ReflTransGen.refl⟩
  · subst h1 h2
    have e1 := c.lo1 l rfl
    refine ⟨?_, by simp, q, hq, ?_⟩
    · intro l' hl' hxl; cases hl'
      apply Walk.one; rw [nxt_x h3]; exact if_pos hxl
    · intro h5 h6
      apply Walk.one; rw [nxt_x h3, if_neg, if_pos]
      · show g.xv (g.lft e) < x; linarith [e1.2]
      · show ¬ x < g.xv (g.lft e); linarith [e1.2]
  · subst h1 h2
    have e1 := c.ro1 r rfl
    refine ⟨by simp, ?_, q, hq, ?_⟩
    · intro l' hl' hxl; cases hl'
      apply Walk.one; rw [nxt_x h3, if_neg, if_pos]
      · exact hxl
      · show ¬ x < g.xv (g.rgt e); linarith
    · intro h5 h6
      apply Walk.one; rw [nxt_x h3, if_pos]
      show x < g.xv (g.rgt e); linarith [e1.2]
  · subst h1 h2
    have e1 := c.lo1 l rfl
    have e2 := c.ro1 r rfl
    refine ⟨?_, ?_, q, hq, ?_⟩
    · intro l' hl' hxl; cases hl'
      apply Walk.one; rw [nxt_x h3]; exact if_pos hxl
    · intro l' hl' hxl; cases hl'
      have k1 : nxt g nodes' x y t = some w := by
        rw [nxt_x h3, if_neg, if_pos]
        · show g.xv (g.lft e) < x; linarith
        · show ¬ x < g.xv (g.lft e); linarith
      refine (Walk.one k1).trans (Walk.one ?_)
      rw [nxt_x h4, if_neg, if_pos]
      · exact hxl
      · show ¬ x < g.xv (g.rgt e); linarith
    · intro h5 h6
      have k1 : nxt g nodes' x y t = some w := by
        rw [nxt_x h3, if_neg, if_pos]
        · show g.xv (g.lft e) < x; linarith [e1.2]
        · show ¬ x < g.xv (g.lft e); linarith [e1.2]
      refine (Walk.one k1).trans (Walk.one ?_)
      rw [nxt_x h4, if_pos]
      show x < g.xv (g.rgt e); linarith [e2.2]

/-- Where searches from the split node may be. -/
theorem Split.tree_cases (hg : g.Good) (s : Split g.edges nodes nodes' e t a b la ra lo ro) {T : Trap}
    (c : Cut g T e la ra lo ro) (hT : g.xv T.left < g.xv T.right) {x y : ℚ} (hx : g.xv T.left < x)
    (hx' : x < g.xv T.right) {j : ℕ} (h : Walk g nodes' x y t j) :
    (lo = some j ∧ x < g.xv (g.lft e)) ∨ (ro = some j ∧ g.xv (g.rgt e) < x) ∨
    (j = a ∧ g.xv la < x ∧ x < g.xv ra ∧ g.f e x < y) ∨ (j = b ∧ g.xv la < x ∧ x < g.xv ra ∧ y < g.f e x) ∨
    (inner nodes' j = some (.y e b a) ∧ g.xv la < x ∧ x < g.xv ra) ∨
    (∃ p l r, inner nodes' j = some (.x p l r) ∧ (p = g.lft e ∨ p = g.rgt e)) := by
  obtain ⟨q, hq, htree⟩ := s.tree
  have hb := c.bounds hg hT
  have hp := hg.pos e c.he
  have hleaf : ∀ i, (i = a ∨ i = b ∨ lo = some i ∨ ro = some i) → isLeaf nodes' i = true :=
    fun i hi => (s.leaf i).mpr (Or.inr hi)
  -- from the inner node of the edge
  have fromq : g.xv la < x → x < g.xv ra → Walk g nodes' x y q j →
      (j = a ∧ g.xv la < x ∧ x < g.xv ra ∧ g.f e x < y) ∨ (j = b ∧ g.xv la < x ∧ x < g.xv ra ∧ y < g.f e x) ∨
      (inner nodes' j = some (.y e b a) ∧ g.xv la < x ∧ x < g.xv ra) := by
    intro h1 h2 hw
    rcases Relation.ReflTransGen.cases_head hw with h3 | ⟨i, h3, h4⟩
    · subst h3; exact Or.inr (Or.inr ⟨hq, h1, h2⟩)
    · rw [nxt_y hq] at h3
      by_cases y1 : g.f e x < y
      · rw [if_pos y1] at h3; cases h3
        have := Walk.leaf_eq h4 (hleaf _ (Or.inl rfl))
        exact Or.inl ⟨this, h1, h2, y1⟩
      · rw [if_neg y1] at h3
        by_cases y2 : y < g.f e x
        · rw [if_pos y2] at h3; cases h3
          have := Walk.leaf_eq h4 (hleaf _ (Or.inr (Or.inl rfl)))
          exact Or.inr (Or.inl ⟨this, h1, h2, y2⟩)
        · rw [if_neg y2] at h3; cases h3
  have fromq' : g.xv la < x → x < g.xv ra → Walk g nodes' x y q j → (lo = some j ∧ x < g.xv (g.lft e)) ∨ (ro = some j ∧ g.xv (g.rgt e) < x) ∨
    (j = a ∧ g.xv la < x ∧ x < g.xv ra ∧ g.f e x < y) ∨ (j = b ∧ g.xv la < x ∧ x < g.xv ra ∧ y < g.f e x) ∨
    (inner nodes' j = some (.y e b a) ∧ g.xv la < x ∧ x < g.xv ra) ∨
    (∃ p l r, inner nodes' j = some (.x p l r) ∧ (p = g.lft e ∨ p = g.rgt e)) := by
    intro h1 h2 hw
    rcases fromq h1 h2 hw with k | k | k
    · exact Or.inr (Or.inr (Or.inl k))
    · exact Or.inr (Or.inr (Or.inr (Or.inl k)))
    · exact Or.inr (Or.inr (Or.inr (Or.inr (Or.inl k))))
  -- from the node of the right end
  have fromr : ∀ w r, ro = some r → inner nodes' w = some (.x (g.rgt e) q r) → g.xv la < x → Walk g nodes' x y w j →
      (lo = some j ∧ x < g.xv (g.lft e)) ∨ (ro = some j ∧ g.xv (g.rgt e) < x) ∨
    (j = a ∧ g.xv la < x ∧ x < g.xv ra ∧ g.f e x < y) ∨ (j = b ∧ g.xv la < x ∧ x < g.xv ra ∧ y < g.f e x) ∨
    (inner nodes' j = some (.y e b a) ∧ g.xv la < x ∧ x < g.xv ra) ∨
    (∃ p l r, inner nodes' j = some (.x p l r) ∧ (p = g.lft e ∨ p = g.rgt e)) := by
    intro w r hr hw h1 hh
    have e2 := c.ro1 r hr
    rcases Relation.ReflTransGen.cases_head hh with h3 | ⟨i, h3, h4⟩
    · subst h3; exact Or.inr (Or.inr (Or.inr (Or.inr (Or.inr ⟨_, _, _, hw, Or.inr rfl⟩))))
    · rw [nxt_x hw] at h3
      by_cases y1 : x < g.xv (g.rgt e)
      · rw [if_pos y1] at h3; cases h3
        exact fromq' h1 (by rw [e2.2]; exact y1) h4
      · rw [if_neg y1] at h3
        by_cases y2 : g.xv (g.rgt e) < x
        · rw [if_pos y2] at h3; cases h3
          have := Walk.leaf_eq h4 (hleaf _ (Or.inr (Or.inr (Or.inr hr))))
          subst this
          exact Or.inr (Or.inl ⟨hr, y2⟩)
        · rw [if_neg y2] at h3; cases h3
  have froml : ∀ w l, lo = some l → inner nodes' t = some (.x (g.lft e) l w) → 
      (g.xv la < x → Walk g nodes' x y w j → (lo = some j ∧ x < g.xv (g.lft e)) ∨ (ro = some j ∧ g.xv (g.rgt e) < x) ∨
    (j = a ∧ g.xv la < x ∧ x < g.xv ra ∧ g.f e x < y) ∨ (j = b ∧ g.xv la < x ∧ x < g.xv ra ∧ y < g.f e x) ∨
    (inner nodes' j = some (.y e b a) ∧ g.xv la < x ∧ x < g.xv ra) ∨
    (∃ p l r, inner nodes' j = some (.x p l r) ∧ (p = g.lft e ∨ p = g.rgt e))) →
      (lo = some j ∧ x < g.xv (g.lft e)) ∨ (ro = some j ∧ g.xv (g.rgt e) < x) ∨
    (j = a ∧ g.xv la < x ∧ x < g.xv ra ∧ g.f e x < y) ∨ (j = b ∧ g.xv la < x ∧ x < g.xv ra ∧ y < g.f e x) ∨
    (inner nodes' j = some (.y e b a) ∧ g.xv la < x ∧ x < g.xv ra) ∨
    (∃ p l r, inner nodes' j = some (.x p l r) ∧ (p = g.lft e ∨ p = g.rgt e)) := by
    intro w l hl hw next
    have e2 := c.lo1 l hl
    rcases Relation.ReflTransGen.cases_head h with h3 | ⟨i, h3, h4⟩
    · subst h3; exact Or.inr (Or.inr (Or.inr (Or.inr (Or.inr ⟨_, _, _, hw, Or.inl rfl⟩))))
    · rw [nxt_x hw] at h3
      by_cases y1 : x < g.xv (g.lft e)
      · rw [if_pos y1] at h3; cases h3
        have := Walk.leaf_eq h4 (hleaf _ (Or.inr (Or.inr (Or.inl hl))))
        subst this
        exact Or.inl ⟨hl, y1⟩
      · rw [if_neg y1] at h3
        by_cases y2 : g.xv (g.lft e) < x
        · rw [if_pos y2] at h3; cases h3
          exact next (by rw [e2.2]; exact y2) h4
        · rw [if_neg y2] at h3; cases h3
  rcases htree with ⟨h1, h2, h3⟩ | ⟨l, h1, h2, h3⟩ | ⟨r, h1, h2, h3⟩ | ⟨l, r, w, h1, h2, h3, h4⟩
  · subst h3
    have e1 := c.lo0 h1
    have e2 := c.ro0 h2
    exact fromq' (by rw [e1.2]; exact hx) (by rw [e2.2]; exact hx') h
  · have e2 := c.ro0 h2
    exact froml q l h1 h3 (fun k1 k2 => fromq' k1 (by rw [e2.2]; exact hx') k2)
  · have e1 := c.lo0 h1
    exact fromr t r h2 h3 (by rw [e1.2]; exact hx) h
  · exact froml w l h1 h3 (fun k1 k2 => fromr w r h2 h4 k1 k2)

theorem TrapOk.of_bare {X : Trap} (h : TrapOk g X.bare) : TrapOk g X :=
  ⟨h.vl, h.vr, h.lt, h.b2, h.a2, h.sbl, h.sbr, h.sal, h.sar, h.ord⟩

theorem TrapOk.to_bare {X : Trap} (h : TrapOk g X) : TrapOk g X.bare :=
  ⟨h.vl, h.vr, h.lt, h.b2, h.a2, h.sbl, h.sbr, h.sal, h.sar, h.ord⟩

/-- A part of a trapezoid between two abscissas. -/
theorem TrapOk.part {T : Trap} (h : TrapOk g T) {l r : ℕ} (vl : g.V l) (vr : g.V r) (h1 : g.xv T.left ≤ g.xv l)
    (h2 : g.xv l < g.xv r) (h3 : g.xv r ≤ g.xv T.right) : TrapOk g (mkTrap g.edges l r T.below T.above) where
  vl := vl
  vr := vr
  lt := h2
  b2 := h.b2
  a2 := h.a2
  sbl := h.sbl.mono h.sbr h1 (h2.le.trans h3)
  sbr := h.sbl.mono h.sbr (h1.trans h2.le) h3
  sal := h.sal.mono h.sar h1 (h2.le.trans h3)
  sar := h.sal.mono h.sar (h1.trans h2.le) h3
  ord := fun w hw hw' => h.ord w (lt_of_le_of_lt h1 hw) (lt_of_lt_of_le hw' h3)

theorem Cut.sp (hg : g.Good) {T : Trap} (c : Cut g T e la ra lo ro) (hT : g.xv T.left < g.xv T.right) {w : ℚ}
    (h1 : g.xv la ≤ w) (h2 : w ≤ g.xv ra) : g.Sp e w := fun _ => by
  have := c.bounds hg hT
  exact ⟨by linarith, by linarith⟩

theorem mid_lt {u v : ℚ} (h : u < v) : u < (u + v) / 2 ∧ (u + v) / 2 < v := ⟨by linarith, by linarith⟩

/-- What is known about a trapezoid above the edge which is made longer. -/
structure ExtA (g : Geo) (nodes : Nodes) (e t a : ℕ) (lo : Option ℕ) : Prop where
  lo : lo = none
  below : (trapAt nodes a).below = e
  right : g.xv (trapAt nodes a).right = g.xv (trapAt nodes t).left

structure ExtB (g : Geo) (nodes : Nodes) (e t b : ℕ) (lo : Option ℕ) : Prop where
  lo : lo = none
  above : (trapAt nodes b).above = e
  right : g.xv (trapAt nodes b).right = g.xv (trapAt nodes t).left

theorem Split.fieldsA (s : Split g.edges nodes nodes' e t a b la ra lo ro)
    (hA : a < nodes.length → ExtA g nodes e t a lo) :
    (trapAt nodes' a).right = ra ∧ (trapAt nodes' a).below = e ∧ (trapAt nodes' a).above = (trapAt nodes t).above ∧
    ((nodes.length ≤ a ∧ (trapAt nodes' a).left = la) ∨ (a < nodes.length ∧ isLeaf nodes a = true ∧ a ≠ t ∧
      (trapAt nodes a).above = (trapAt nodes t).above ∧ (trapAt nodes' a).left = (trapAt nodes a).left)) := by
  rcases s.above with ⟨h1, h2⟩ | ⟨h1, h2, h3, h4, h5⟩
  · have := bare_eq_fields (T' := mkTrap g.edges la ra e (trapAt nodes t).above) h2
    exact ⟨this.2.1, this.2.2.1, this.2.2.2, Or.inl ⟨h1, this.1⟩⟩
  · have := bare_eq_fields (T' := { trapAt nodes a with right := ra }) h5
    exact ⟨this.2.1, this.2.2.1.trans (hA h1).below, this.2.2.2.trans h4, Or.inr ⟨h1, h3, h2, h4, this.1⟩⟩

theorem Split.fieldsB (s : Split g.edges nodes nodes' e t a b la ra lo ro)
    (hB : b < nodes.length → ExtB g nodes e t b lo) :
    (trapAt nodes' b).right = ra ∧ (trapAt nodes' b).above = e ∧ (trapAt nodes' b).below = (trapAt nodes t).below ∧
    ((nodes.length ≤ b ∧ (trapAt nodes' b).left = la) ∨ (b < nodes.length ∧ isLeaf nodes b = true ∧ b ≠ t ∧
      (trapAt nodes b).below = (trapAt nodes t).below ∧ (trapAt nodes' b).left = (trapAt nodes b).left)) := by
  rcases s.below with ⟨h1, h2⟩ | ⟨h1, h2, h3, h4, h5⟩
  · have := bare_eq_fields (T' := mkTrap g.edges la ra (trapAt nodes t).below e) h2
    exact ⟨this.2.1, this.2.2.2, this.2.2.1, Or.inl ⟨h1, this.1⟩⟩
  · have := bare_eq_fields (T' := { trapAt nodes b with right := ra }) h5
    exact ⟨this.2.1, this.2.2.2.trans (hB h1).above, this.2.2.1.trans h4, Or.inr ⟨h1, h3, h2, h4, this.1⟩⟩

theorem Split.fieldsL (s : Split g.edges nodes nodes' e t a b la ra lo ro) {l : ℕ} (hl : lo = some l) :
    (trapAt nodes' l).left = (trapAt nodes t).left ∧ (trapAt nodes' l).right = g.lft e ∧
    (trapAt nodes' l).below = (trapAt nodes t).below ∧ (trapAt nodes' l).above = (trapAt nodes t).above :=
  bare_eq_fields (T' := mkTrap g.edges (trapAt nodes t).left (g.lft e) (trapAt nodes t).below (trapAt nodes t).above)
    (s.left l hl).2.2.2

theorem Split.fieldsR (s : Split g.edges nodes nodes' e t a b la ra lo ro) {l : ℕ} (hl : ro = some l) :
    (trapAt nodes' l).left = g.rgt e ∧ (trapAt nodes' l).right = (trapAt nodes t).right ∧
    (trapAt nodes' l).below = (trapAt nodes t).below ∧ (trapAt nodes' l).above = (trapAt nodes t).above :=
  bare_eq_fields (T' := mkTrap g.edges (g.rgt e) (trapAt nodes t).right (trapAt nodes t).below (trapAt nodes t).above)
    (s.right l hl).2.2.2

/-- The leaves after splitting. -/
theorem Split.leaf_cases (s : Split g.edges nodes nodes' e t a b la ra lo ro) {i : ℕ} (hi : isLeaf nodes' i = true) :
    i = a ∨ i = b ∨ lo = some i ∨ ro = some i ∨ (isLeaf nodes i = true ∧ i ≠ t ∧ i ≠ a ∧ i ≠ b ∧
      (trapAt nodes' i).bare = (trapAt nodes i).bare) := by
  by_cases ha : i = a
  · exact Or.inl ha
  by_cases hb : i = b
  · exact Or.inr (Or.inl hb)
  rcases (s.leaf i).mp hi with h | h | h | h | h
  · exact Or.inr (Or.inr (Or.inr (Or.inr ⟨h.1, h.2, ha, hb, s.keep i (isLeaf_lt h.1) h.2 ha hb⟩)))
  · exact absurd h ha
  · exact absurd h hb
  · exact Or.inr (Or.inr (Or.inl h))
  · exact Or.inr (Or.inr (Or.inr (Or.inl h)))

theorem Split.trapOk (hg : g.Good) (s : Split g.edges nodes nodes' e t a b la ra lo ro) 
    (ht : isLeaf nodes t = true)
    (c : Cut g (trapAt nodes t) e la ra lo ro)
    (hA : a < nodes.length → ExtA g nodes e t a lo) (hB : b < nodes.length → ExtB g nodes e t b lo)
    (htr : ∀ i, isLeaf nodes i = true → TrapOk g (trapAt nodes i)) :
    ∀ i, isLeaf nodes' i = true → TrapOk g (trapAt nodes' i) := by
  intro i hi
  have hT := htr t ht
  obtain ⟨b1, b2, b3, b4, b5⟩ := c.bounds hg hT.lt
  have he2 : e < g.n + 2 := by have := c.he; omega
  rcases s.leaf_cases hi with rfl | rfl | h | h | h
  · obtain ⟨k1, k2, k3, k4⟩ := s.fieldsA hA
    rcases k4 with ⟨k4, k5⟩ | ⟨k4, k5, k6, k7, k8⟩
    · refine ⟨?_, ?_, ?_, ?_, ?_, ?_, ?_, ?_, ?_, ?_⟩ <;> simp only [k1, k2, k3, k5]
      · exact c.vla
      · exact c.vra
      · exact b1
      · exact he2
      · exact hT.a2
      · exact c.sp hg hT.lt le_rfl b1.le
      · exact c.sp hg hT.lt b1.le le_rfl
      · exact hT.sal.mono hT.sar b2 (b1.le.trans b3)
      · exact hT.sal.mono hT.sar (b2.trans b1.le) b3
      · intro w h1 h2; exact (c.mid w h1 h2).2
    · have hO := htr i k5
      have x := hA k4
      have e0 := c.lo0 x.lo
      have hlt : g.xv (trapAt nodes i).left < g.xv ra := by
        have := hO.lt; rw [x.right] at this; linarith
      have sp1 : g.Sp e (g.xv (trapAt nodes i).left) := by have := hO.sbl; rwa [x.below] at this
      have sp2 : g.Sp e (g.xv ra) := c.sp hg hT.lt b1.le le_rfl
      have sp3 : g.Sp (trapAt nodes t).above (g.xv (trapAt nodes i).left) := by have := hO.sal; rwa [k7] at this
      have sp4 : g.Sp (trapAt nodes t).above (g.xv ra) := hT.sal.mono hT.sar (b2.trans b1.le) b3
      refine ⟨?_, ?_, ?_, ?_, ?_, ?_, ?_, ?_, ?_, ?_⟩ <;> simp only [k1, k2, k3, k8]
      · exact hO.vl
      · exact c.vra
      · exact hlt
      · exact he2
      · exact hT.a2
      · exact sp1
      · exact sp2
      · exact sp3
      · exact sp4
      · intro w h1 h2
        obtain ⟨m1, m2⟩ := mid_lt b1
        refine hg.ord he2 hT.a2 sp1 sp2 sp3 sp4 (u := (g.xv la + g.xv ra) / 2) ?_ m2.le (c.mid _ m1 m2).2 h1 h2
        have := hO.lt; rw [x.right, ← e0.2] at this; linarith
  · obtain ⟨k1, k2, k3, k4⟩ := s.fieldsB hB
    rcases k4 with ⟨k4, k5⟩ | ⟨k4, k5, k6, k7, k8⟩
    · refine ⟨?_, ?_, ?_, ?_, ?_, ?_, ?_, ?_, ?_, ?_⟩ <;> simp only [k1, k2, k3, k5]
      · exact c.vla
      · exact c.vra
      · exact b1
      · exact hT.b2
      · exact he2
      · exact hT.sbl.mono hT.sbr b2 (b1.le.trans b3)
      · exact hT.sbl.mono hT.sbr (b2.trans b1.le) b3
      · exact c.sp hg hT.lt le_rfl b1.le
      · exact c.sp hg hT.lt b1.le le_rfl
      · intro w h1 h2; exact (c.mid w h1 h2).1
    · have hO := htr i k5
      have x := hB k4
      have e0 := c.lo0 x.lo
      have hlt : g.xv (trapAt nodes i).left < g.xv ra := by
        have := hO.lt; rw [x.right] at this; linarith
      have sp1 : g.Sp e (g.xv (trapAt nodes i).left) := by have := hO.sal; rwa [x.above] at this
      have sp2 : g.Sp e (g.xv ra) := c.sp hg hT.lt b1.le le_rfl
      have sp3 : g.Sp (trapAt nodes t).below (g.xv (trapAt nodes i).left) := by have := hO.sbl; rwa [k7] at this
      have sp4 : g.Sp (trapAt nodes t).below (g.xv ra) := hT.sbl.mono hT.sbr (b2.trans b1.le) b3
      refine ⟨?_, ?_, ?_, ?_, ?_, ?_, ?_, ?_, ?_, ?_⟩ <;> simp only [k1, k2, k3, k8]
      · exact hO.vl
      · exact c.vra
      · exact hlt
      · exact hT.b2
      · exact he2
      · exact sp3
      · exact sp4
      · exact sp1
      · exact sp2
      · intro w h1 h2
        obtain ⟨m1, m2⟩ := mid_lt b1
        refine hg.ord hT.b2 he2 sp3 sp4 sp1 sp2 (u := (g.xv la + g.xv ra) / 2) ?_ m2.le (c.mid _ m1 m2).1 h1 h2
        have := hO.lt; rw [x.right, ← e0.2] at this; linarith
  · have e1 := c.lo1 i h
    refine TrapOk.of_bare ?_
    rw [(s.left i h).2.2.2]
    refine hT.part hT.vl ?_ le_rfl e1.1 c.hl.le
    exact Or.inl (hg.lft e c.he)
  · have e1 := c.ro1 i h
    refine TrapOk.of_bare ?_
    rw [(s.right i h).2.2.2]
    refine hT.part ?_ hT.vr c.hr.le e1.1 le_rfl
    exact Or.inl (hg.rgt e c.he)
  · refine TrapOk.of_bare ?_
    rw [h.2.2.2.2]
    exact (htr i h.1).to_bare

theorem Gen.ne_V {x y : ℚ} (h : Gen g x y) {i : ℕ} (hi : g.V i) : x ≠ g.xv i := by
  rcases hi with hi | rfl | rfl
  · exact h.2 i hi
  · exact ne_of_gt h.1.1
  · exact ne_of_lt h.1.2.1

theorem Dec.split (hg : g.Good) {m : ℕ} (d : Dec g m nodes) (hem : e < m)
    (s : Split g.edges nodes nodes' e t a b la ra lo ro)
    (ht : isLeaf nodes t = true) (c : Cut g (trapAt nodes t) e la ra lo ro)
    (hA : a < nodes.length → ExtA g nodes e t a lo) (hB : b < nodes.length → ExtB g nodes e t b lo) :
    Dec g m nodes' := by
  have hT := d.trap t ht
  obtain ⟨b1, b2, b3, b4, b5⟩ := c.bounds hg hT.lt
  have htrap := s.trapOk hg ht c hA hB d.trap
  obtain ⟨a1, a2, a3, a4⟩ := s.fieldsA hA
  obtain ⟨c1, c2, c3, c4⟩ := s.fieldsB hB
  refine ⟨d.rk.split ht s, htrap, ?_, ?_, ?_, ?_, ?_⟩
  · intro x y i hbox hw hi
    rcases s.walk_cases d.rk hw with ⟨h1, h2⟩ | ⟨h1, h2⟩
    · -- an old leaf
      have hil : isLeaf nodes i = true := by
        rcases leaf_or_inner (h1.lt d.rk d.rk.1) with h | ⟨n, h⟩
        · exact h
        · have := s.inner_keep ht h
          rw [leaf_not_inner hi] at this; cases this
      have hr := d.sound x y i hbox h1 hil
      have hlt := isLeaf_lt hil
      by_cases hia : i = a
      · subst hia
        rcases a4 with ⟨a4, -⟩ | ⟨a4, a5, a6, a7, a8⟩
        · omega
        · have xx := hA a4
          have e0 := c.lo0 xx.lo
          unfold Reg at hr ⊢
          rw [a1, a2, a3, a8]
          rw [xx.below, a7, xx.right] at hr
          exact ⟨hr.1, by linarith [hr.2.1], hr.2.2⟩
      by_cases hib : i = b
      · subst hib
        rcases c4 with ⟨c4, -⟩ | ⟨c4, c5, c6, c7, c8⟩
        · omega
        · have xx := hB c4
          have e0 := c.lo0 xx.lo
          unfold Reg at hr ⊢
          rw [c1, c2, c3, c8]
          rw [xx.above, c7, xx.right] at hr
          exact ⟨hr.1, by linarith [hr.2.1], hr.2.2⟩
      have := bare_eq_fields (s.keep i hlt h2 hia hib)
      unfold Reg
      rw [this.1, this.2.1, this.2.2.1, this.2.2.2]
      exact hr
    · have hr := d.sound x y t hbox h1 ht
      obtain ⟨r1, r2, r3, r4⟩ := hr
      rcases s.tree_cases hg c hT.lt r1 r2 h2 with ⟨k1, k2⟩ | ⟨k1, k2⟩ | ⟨k1, k2, k3, k4⟩ | ⟨k1, k2, k3, k4⟩ | k | k
      · have f := s.fieldsL k1
        unfold Reg
        rw [f.1, f.2.1, f.2.2.1, f.2.2.2]
        exact ⟨r1, k2, r3, r4⟩
      · have f := s.fieldsR k1
        unfold Reg
        rw [f.1, f.2.1, f.2.2.1, f.2.2.2]
        exact ⟨k2, r2, r3, r4⟩
      · subst k1
        unfold Reg
        rw [a1, a2, a3]
        refine ⟨?_, k3, k4, r4⟩
        rcases a4 with ⟨a4, a5⟩ | ⟨a4, a5, a6, a7, a8⟩
        · rw [a5]; exact k2
        · rw [a8]
          have := (d.trap i a5).lt
          rw [(hA a4).right] at this; linarith
      · subst k1
        unfold Reg
        rw [c1, c2, c3]
        refine ⟨?_, k3, r3, k4⟩
        rcases c4 with ⟨a4, a5⟩ | ⟨a4, a5, a6, a7, a8⟩
        · rw [a5]; exact k2
        · rw [a8]
          have := (d.trap i a5).lt
          rw [(hB a4).right] at this; linarith
      · rw [leaf_not_inner hi] at k; cases k.1
      · obtain ⟨p, l, r, k, -⟩ := k
        rw [leaf_not_inner hi] at k; cases k
  · intro x y i e' b' a' hbox hw hi
    rcases s.walk_cases d.rk hw with ⟨h1, h2⟩ | ⟨h1, h2⟩
    · have hlt := h1.lt d.rk d.rk.1
      rw [s.inn i hlt h2] at hi
      exact d.soundY x y i e' b' a' hbox h1 hi
    · have hr := d.sound x y t hbox h1 ht
      obtain ⟨r1, r2, r3, r4⟩ := hr
      have hnl : ∀ j, (j = a ∨ j = b ∨ lo = some j ∨ ro = some j) → i ≠ j := by
        intro j hj hij
        have := (s.leaf j).mpr (Or.inr hj)
        rw [hij, leaf_not_inner this] at hi; cases hi
      rcases s.tree_cases hg c hT.lt r1 r2 h2 with ⟨k1, k2⟩ | ⟨k1, k2⟩ | ⟨k1, k2, k3, k4⟩ | ⟨k1, k2, k3, k4⟩ | k | k
      · exact absurd rfl (hnl i (by simp [k1]))
      · exact absurd rfl (hnl i (by simp [k1]))
      · exact absurd rfl (hnl i (by simp [k1]))
      · exact absurd rfl (hnl i (by simp [k1]))
      · obtain ⟨k1, k2, k3⟩ := k
        rw [k1] at hi; cases hi
        exact ⟨hem, by linarith, by linarith⟩
      · obtain ⟨p, l, r, k, -⟩ := k
        rw [k] at hi; cases hi
  · intro i hi
    have hT' := d.edg t ht
    rcases s.leaf_cases hi with rfl | rfl | h | h | h
    · rw [a2, a3]; exact ⟨hT'.1, Or.inl hem⟩
    · rw [c2, c3]; exact ⟨Or.inl hem, hT'.2⟩
    · have f := s.fieldsL h
      rw [f.2.2.1, f.2.2.2]; exact hT'
    · have f := s.fieldsR h
      rw [f.2.2.1, f.2.2.2]; exact hT'
    · have f := bare_eq_fields h.2.2.2.2
      rw [f.2.2.1, f.2.2.2]; exact d.edg i h.1
  · intro i p l r hi
    rcases s.news i _ hi with ⟨-, -, h⟩ | ⟨-, h, -⟩
    · exact d.xnode i p l r h
    · rcases h with ⟨p', l', r', h, h'⟩ | h
      · cases h
        rcases h' with rfl | rfl
        · exact hg.lft e c.he
        · exact hg.rgt e c.he
      · cases h
  · intro x y i hgen hi hreg
    obtain ⟨r1, r2, r3, r4⟩ := hreg
    have tow : Reg g (trapAt nodes t) x y → ∃ q, inner nodes' q = some (.y e b a) ∧
        (g.xv la < x → x < g.xv ra → Walk g nodes' x y 0 q) := by
      intro hr
      obtain ⟨-, -, q, hq, h3⟩ := s.tree_walk (x := x) (y := y) hg c hT.lt
      exact ⟨q, hq, fun k1 k2 => (s.lift ht (d.back x y t hgen ht hr)).trans (h3 k1 k2)⟩
    rcases s.leaf_cases hi with rfl | rfl | h | h | h
    · rw [a1] at r2; rw [a2] at r3; rw [a3] at r4
      have part : g.xv la < x → Walk g nodes' x y 0 i := by
        intro hx
        have hf := (c.mid x hx r2).1
        obtain ⟨q, hq, hw⟩ := tow ⟨by linarith, by linarith, by linarith, r4⟩
        refine (hw hx r2).tail ?_
        rw [nxt_y hq, if_pos r3]
      rcases a4 with ⟨a4, a5⟩ | ⟨a4, a5, a6, a7, a8⟩
      · rw [a5] at r1; exact part r1
      · have xx := hA a4
        have e0 := c.lo0 xx.lo
        rcases lt_trichotomy x (g.xv (trapAt nodes i).right) with hx | hx | hx
        · refine s.lift ht (d.back x y i hgen a5 ⟨by rw [← a8]; exact r1, hx, ?_, ?_⟩)
          · rw [xx.below]; exact r3
          · rw [a7]; exact r4
        · exact absurd hx (hgen.ne_V (d.trap i a5).vr)
        · rw [xx.right, ← e0.2] at hx; exact part hx
    · rw [c1] at r2; rw [c3] at r3; rw [c2] at r4
      have part : g.xv la < x → Walk g nodes' x y 0 i := by
        intro hx
        have hf := (c.mid x hx r2).2
        obtain ⟨q, hq, hw⟩ := tow ⟨by linarith, by linarith, r3, by linarith⟩
        refine (hw hx r2).tail ?_
        rw [nxt_y hq, if_neg (by linarith), if_pos r4]
      rcases c4 with ⟨a4, a5⟩ | ⟨a4, a5, a6, a7, a8⟩
      · rw [a5] at r1; exact part r1
      · have xx := hB a4
        have e0 := c.lo0 xx.lo
        rcases lt_trichotomy x (g.xv (trapAt nodes i).right) with hx | hx | hx
        · refine s.lift ht (d.back x y i hgen a5 ⟨by rw [← a8]; exact r1, hx, ?_, ?_⟩)
          · rw [a7]; exact r3
          · rw [xx.above]; exact r4
        · exact absurd hx (hgen.ne_V (d.trap i a5).vr)
        · rw [xx.right, ← e0.2] at hx; exact part hx
    · have f := s.fieldsL h
      rw [f.1] at r1; rw [f.2.1] at r2; rw [f.2.2.1] at r3; rw [f.2.2.2] at r4
      have e1 := c.lo1 i h
      have hr : Reg g (trapAt nodes t) x y := ⟨r1, by linarith [c.hl], r3, r4⟩
      obtain ⟨h1, -, -⟩ := s.tree_walk (x := x) (y := y) hg c hT.lt
      exact (s.lift ht (d.back x y t hgen ht hr)).trans (h1 i h r2)
    · have f := s.fieldsR h
      rw [f.1] at r1; rw [f.2.1] at r2; rw [f.2.2.1] at r3; rw [f.2.2.2] at r4
      have e1 := c.ro1 i h
      have hr : Reg g (trapAt nodes t) x y := ⟨by linarith [c.hr], r2, r3, r4⟩
      obtain ⟨-, h1, -⟩ := s.tree_walk (x := x) (y := y) hg c hT.lt
      exact (s.lift ht (d.back x y t hgen ht hr)).trans (h1 i h r1)
    · have f := bare_eq_fields h.2.2.2.2
      rw [f.1] at r1; rw [f.2.1] at r2; rw [f.2.2.1] at r3; rw [f.2.2.2] at r4
      exact s.lift ht (d.back x y i hgen h.1 ⟨r1, r2, r3, r4⟩)
end split

end Rene.Seidel
