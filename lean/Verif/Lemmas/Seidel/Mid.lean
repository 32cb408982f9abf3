import Verif.Lemmas.Seidel.Step

namespace Rene.Seidel
open Rene Spec

variable {g : Geo} {nodes nodes' : Nodes} {e t a b la ra m : ℕ} {lo ro poU poL : Option ℕ}

/-- The left wall of a trapezoid is between its edges. -/
def Wall (g : Geo) (T : Trap) : Prop :=
  T.left < g.k → g.f T.below (g.xv T.left) ≤ g.yv T.left ∧ g.yv T.left ≤ g.f T.above (g.xv T.left)

structure St (g : Geo) (m : ℕ) (nodes : Nodes) : Prop where
  dec : Dec g m nodes
  cu : CanonU g nodes
  cl : CanonL g nodes
  wall : ∀ i, isLeaf nodes i = true → Wall g (trapAt nodes i)

def Free (g : Geo) (x : ℚ) : Prop := ∀ i < g.k, x ≠ g.xv i

/-- The edge at the ends of its part in the trapezoid. -/
theorem Cut.ends (hg : g.Good) {T : Trap} (hT : TrapOk g T) (c : Cut g T e la ra lo ro) :
    g.f T.below (g.xv la) ≤ g.f e (g.xv la) ∧ g.f e (g.xv la) ≤ g.f T.above (g.xv la) ∧
    g.f T.below (g.xv ra) ≤ g.f e (g.xv ra) ∧ g.f e (g.xv ra) ≤ g.f T.above (g.xv ra) := by
  obtain ⟨b1, b2, b3, b4, b5⟩ := c.bounds hg hT.lt
  obtain ⟨w1, w2⟩ := mid_lt b1
  obtain ⟨q1, q2⟩ := c.mid _ w1 w2
  have he : e < g.n + 2 := by have := c.he; omega
  have s1 : g.Sp e (g.xv la) := fun _ => ⟨b4, by linarith⟩
  have s2 : g.Sp e (g.xv ra) := fun _ => ⟨by linarith, b5⟩
  have t1 := hT.sbl.mono hT.sbr b2 (b1.le.trans b3)
  have t2 := hT.sbl.mono hT.sbr (b2.trans b1.le) b3
  have t3 := hT.sal.mono hT.sar b2 (b1.le.trans b3)
  have t4 := hT.sal.mono hT.sar (b2.trans b1.le) b3
  exact ⟨hg.ord_le hT.b2 he t1 t2 s1 s2 w1 w2 q1 le_rfl b1.le, hg.ord_le he hT.a2 s1 s2 t3 t4 w1 w2 q2 le_rfl b1.le,
    hg.ord_le hT.b2 he t1 t2 s1 s2 w1 w2 q1 b1.le le_rfl, hg.ord_le he hT.a2 s1 s2 t3 t4 w1 w2 q2 b1.le le_rfl⟩

theorem Wall.of {T T' : Trap} (h : Wall g T) (h1 : T'.left = T.left) (h2 : T'.below = T.below)
    (h3 : T'.above = T.above) : Wall g T' := by
  unfold Wall; rw [h1, h2, h3]; exact h

theorem St.split (hg : g.Good) (S : St g m nodes) (hem : e < m)
    (s : Split g.edges nodes nodes' e t a b la ra lo ro)
    (ht : isLeaf nodes t = true) (c : Cut g (trapAt nodes t) e la ra lo ro)
    (hA : a < nodes.length → ExtA g nodes e t a lo) (hB : b < nodes.length → ExtB g nodes e t b lo)
    (oldU : ∀ i, isLeaf nodes i = true → (trapAt nodes i).above = e → XR g nodes i ≤ XL g nodes t)
    (oldL : ∀ i, isLeaf nodes i = true → (trapAt nodes i).below = e → XR g nodes i ≤ XL g nodes t)
    (hpoU : ¬ Lf nodes b → ∀ p, poU = some p → Lf nodes p ∧ p ≠ t ∧ p ≠ a ∧ Ab nodes p = e ∧
      XR g nodes p = XL g nodes t ∧ lo = none)
    (hpoU0 : poU = none → ∀ i, Lf nodes i → Ab nodes i ≠ e)
    (hpoL : ¬ Lf nodes a → ∀ p, poL = some p → Lf nodes p ∧ p ≠ t ∧ p ≠ b ∧ Bl nodes p = e ∧
      XR g nodes p = XL g nodes t ∧ lo = none)
    (hpoL0 : poL = none → ∀ i, Lf nodes i → Bl nodes i ≠ e)
    (lu : LinkStep (Lf nodes) (Lf nodes') (UR nodes) (UL nodes) (UR nodes') (UL nodes') t a b lo ro poU)
    (ll : LinkStep (Lf nodes) (Lf nodes') (LR nodes) (LL nodes) (LR nodes') (LL nodes') t b a lo ro poL)
    (wA : nodes.length ≤ a → la < g.k → g.f e (g.xv la) ≤ g.yv la ∧ g.yv la ≤ g.f (trapAt nodes t).above (g.xv la))
    (wB : nodes.length ≤ b → la < g.k → g.f (trapAt nodes t).below (g.xv la) ≤ g.yv la ∧ g.yv la ≤ g.f e (g.xv la)) :
    St g m nodes' ∧ (∀ x, Free g x → g.xv la < x → x < g.xv ra → StopAt g nodes' x (g.f e x)) := by
  have hT := S.dec.trap t ht
  have d' := S.dec.split hg hem s ht c hA hB
  obtain ⟨b1, b2, b3, b4, b5⟩ := c.bounds hg hT.lt
  obtain ⟨z1, z2, z3, z4⟩ := c.ends hg hT
  obtain ⟨a1, a2, a3, a4⟩ := s.fieldsA hA
  obtain ⟨c1, c2, c3, c4⟩ := s.fieldsB hB
  refine ⟨⟨d', S.cu.split hg d' (s.geoU hg S.dec d' ht c hA hB oldU hpoU hpoU0) lu,
    S.cl.split hg d' (s.geoL hg S.dec d' ht c hA hB oldL hpoL hpoL0) ll, ?_⟩, ?_⟩
  · intro i hi
    rcases s.leaf_cases hi with k | k | k | k | ⟨k1, k2, k3, k4, k5⟩
    · subst k
      rcases a4 with q | q
      · intro h
        rw [a2, a3, q.2]
        rw [q.2] at h
        exact wA q.1 h
      · exact (S.wall i q.2.1).of q.2.2.2.2 (a2.trans (hA q.1).below.symm) (a3.trans q.2.2.2.1.symm)
    · subst k
      rcases c4 with q | q
      · intro h
        rw [c2, c3, q.2]
        rw [q.2] at h
        exact wB q.1 h
      · exact (S.wall i q.2.1).of q.2.2.2.2 (c3.trans q.2.2.2.1.symm) (c2.trans (hB q.1).above.symm)
    · obtain ⟨f1, f2, f3, f4⟩ := s.fieldsL k
      exact (S.wall t ht).of f1 f3 f4
    · obtain ⟨f1, f2, f3, f4⟩ := s.fieldsR k
      intro h
      rw [f1, f3, f4, hg.onR e c.he]
      have := (c.ro1 i k).2
      rw [this] at z3 z4
      exact ⟨z3, z4⟩
    · have := bare_eq_fields k5
      exact (S.wall i k1).of this.1 this.2.2.1 this.2.2.2
  · intro x hx h1 h2
    obtain ⟨q1, q2⟩ := c.mid x h1 h2
    have hr : Reg g (trapAt nodes t) x (g.f e x) := ⟨by linarith, by linarith, q1, q2⟩
    have hw := S.dec.back x _ t ⟨hT.inBox hg hr, hx⟩ ht hr
    obtain ⟨-, -, q, hq, hq2⟩ := s.tree_walk hg c hT.lt (x := x) (y := g.f e x)
    refine ⟨q, _, (s.lift ht hw).trans (hq2 h1 h2), hq, ?_⟩
    rw [nxt_y hq, if_neg (lt_irrefl _), if_neg (lt_irrefl _)]

/-! ### The chain of trapezoids which are met by an edge -/

def MidT (g : Geo) (e : ℕ) (T : Trap) : Prop :=
  ∀ w, g.xv T.left < w → w < g.xv T.right → g.xv (g.lft e) < w → w < g.xv (g.rgt e) →
    g.f T.below w < g.f e w ∧ g.f e w < g.f T.above w

/-- How the edge passes from a trapezoid to the next one. -/
def Rel (g : Geo) (e ab bl : ℕ) (T' : Trap) : Prop :=
  (g.yv T'.left < g.f e (g.xv T'.left) ∧ ab = T'.above) ∨ (g.f e (g.xv T'.left) < g.yv T'.left ∧ bl = T'.below)

def Chn (g : Geo) (nodes : Nodes) (e : ℕ) : List ℕ → Prop
  | [] => False
  | [t] => isLeaf nodes t = true ∧ g.xv (g.rgt e) ≤ g.xv (trapAt nodes t).right ∧
    g.xv (trapAt nodes t).left < g.xv (g.rgt e) ∧ g.xv (g.lft e) < g.xv (trapAt nodes t).right ∧ MidT g e (trapAt nodes t)
  | t :: t' :: rest => (isLeaf nodes t = true ∧ g.xv (trapAt nodes t).right < g.xv (g.rgt e) ∧
    g.xv (g.lft e) < g.xv (trapAt nodes t).right ∧ MidT g e (trapAt nodes t) ∧
    g.xv (trapAt nodes t).right = g.xv (trapAt nodes t').left ∧ (trapAt nodes t').left < g.k ∧
    Rel g e (trapAt nodes t).above (trapAt nodes t).below (trapAt nodes t')) ∧ Chn g nodes e (t' :: rest)

theorem Chn.leaf : ∀ {ts : List ℕ}, Chn g nodes e ts → ∀ i ∈ ts, isLeaf nodes i = true
  | [], h => h.elim
  | [t], h => by intro i hi; simp only [List.mem_singleton] at hi; subst hi; exact h.1
  | t :: t' :: rest, h => by
    intro i hi
    rcases List.mem_cons.mp hi with rfl | hi
    · exact h.1.1
    · exact Chn.leaf h.2 i hi

theorem Chn.congr : ∀ {ts : List ℕ}, Chn g nodes e ts →
    (∀ i ∈ ts, isLeaf nodes' i = true ∧ (trapAt nodes' i).bare = (trapAt nodes i).bare) → Chn g nodes' e ts
  | [], h, _ => h
  | [t], h, hc => by
    obtain ⟨q1, q2⟩ := hc t (by simp)
    obtain ⟨f1, f2, f3, f4⟩ := bare_eq_fields q2
    unfold Chn MidT at *
    rw [f1, f2, f3, f4]
    exact ⟨q1, h.2⟩
  | t :: t' :: rest, h, hc => by
    obtain ⟨q1, q2⟩ := hc t (by simp)
    obtain ⟨f1, f2, f3, f4⟩ := bare_eq_fields q2
    obtain ⟨q1', q2'⟩ := hc t' (by simp)
    obtain ⟨f1', f2', f3', f4'⟩ := bare_eq_fields q2'
    refine ⟨?_, Chn.congr h.2 fun i hi => hc i (List.mem_cons_of_mem _ hi)⟩
    obtain ⟨h1, h2, h3, h4, h5, h6, h7⟩ := h.1
    refine ⟨q1, by rw [f2]; exact h2, by rw [f2]; exact h3, ?_, by rw [f2, f1']; exact h5, by rw [f1']; exact h6, ?_⟩
    · unfold MidT at *; rw [f1, f2, f3, f4]; exact h4
    · unfold Rel at *; rw [f3, f4, f1', f3', f4']; exact h7

/-- Later trapezoids are further to the right. -/
theorem Chn.right (d : Dec g m nodes) : ∀ {t : ℕ} {ts : List ℕ}, Chn g nodes e (t :: ts) →
    ∀ i ∈ ts, g.xv (trapAt nodes t).right ≤ g.xv (trapAt nodes i).left
  | t, [], _ => by simp
  | t, t' :: rest, h => by
    intro i hi
    have h5 := h.1.2.2.2.2.1
    rcases List.mem_cons.mp hi with rfl | hi
    · exact h5.le
    · have := Chn.right d h.2 i hi
      have := (d.trap t' (Chn.leaf h.2 t' (by simp))).lt
      linarith

theorem Chn.nodup (d : Dec g m nodes) : ∀ {ts : List ℕ}, Chn g nodes e ts → ts.Nodup
  | [], h => h.elim
  | [t], _ => by simp
  | t :: t' :: rest, h => by
    refine List.nodup_cons.mpr ⟨?_, Chn.nodup d h.2⟩
    intro hm
    have := Chn.right d h t hm
    have := (d.trap t h.1.1).lt
    linarith

theorem Chn.lr (d : Dec g m nodes) : ∀ {t : ℕ} {ts : List ℕ}, Chn g nodes e (t :: ts) →
    g.xv (trapAt nodes t).left < g.xv (g.rgt e) ∧ g.xv (g.lft e) < g.xv (trapAt nodes t).right ∧ MidT g e (trapAt nodes t)
  | t, [], h => h.2.2
  | t, t' :: rest, h => ⟨by have := (d.trap t h.1.1).lt; linarith [h.1.2.1], h.1.2.2.1, h.1.2.2.2.1⟩

theorem Chn.ne (hg : g.Good) (he : e < g.n) (d : Dec g m nodes) : ∀ {ts : List ℕ}, Chn g nodes e ts →
    ∀ i ∈ ts, (trapAt nodes i).above ≠ e ∧ (trapAt nodes i).below ≠ e := by
  have key : ∀ {t : ℕ} {ts : List ℕ}, Chn g nodes e (t :: ts) → (trapAt nodes t).above ≠ e ∧ (trapAt nodes t).below ≠ e := by
    intro t ts h
    obtain ⟨h1, h2, h3⟩ := Chn.lr d h
    have hT := (d.trap t (Chn.leaf h t (by simp))).lt
    have hp := hg.pos e he
    have hlt : max (g.xv (trapAt nodes t).left) (g.xv (g.lft e)) < min (g.xv (trapAt nodes t).right) (g.xv (g.rgt e)) :=
      max_lt (lt_min hT h1) (lt_min h2 hp)
    obtain ⟨w, w1, w2⟩ := exists_between hlt
    have := h3 w ((le_max_left _ _).trans_lt w1) (w2.trans_le (min_le_left _ _)) ((le_max_right _ _).trans_lt w1)
      (w2.trans_le (min_le_right _ _))
    constructor
    · intro q; rw [q] at this; exact lt_irrefl _ this.2
    · intro q; rw [q] at this; exact lt_irrefl _ this.1
  intro ts
  induction ts with
  | nil => intro h; exact h.elim
  | cons t rest ih =>
    intro h i hi
    rcases List.mem_cons.mp hi with rfl | hi
    · exact key h
    · cases rest with
      | nil => simp at hi
      | cons t' rest => exact ih h.2 i hi

/-- The state before the edge is added to the trapezoid `t`. -/
structure Mid (g : Geo) (m : ℕ) (nodes : Nodes) (e t pa pb : ℕ) : Prop where
  st : St g m nodes
  ha : isLeaf nodes pa = true
  hb : isLeaf nodes pb = true
  ab : pa ≠ pb
  ea : (trapAt nodes pa).below = e
  eb : (trapAt nodes pb).above = e
  xa : XR g nodes pa = XL g nodes t
  xb : XR g nodes pb = XL g nodes t
  oldU : ∀ i, isLeaf nodes i = true → (trapAt nodes i).above = e → XR g nodes i ≤ XL g nodes t
  oldL : ∀ i, isLeaf nodes i = true → (trapAt nodes i).below = e → XR g nodes i ≤ XL g nodes t
  stp : ∀ x, Free g x → g.xv (g.lft e) < x → x < XL g nodes t → StopAt g nodes x (g.f e x)
  lk : (trapAt nodes t).left < g.k
  ll : g.xv (g.lft e) < XL g nodes t
  rel : Rel g e (trapAt nodes pa).above (trapAt nodes pb).below (trapAt nodes t)

end Rene.Seidel
