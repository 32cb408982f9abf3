import Verif.Lemmas.Seidel.Links4

namespace Rene.Seidel
open Rene Spec

def Ab (N : Nodes) (i : ℕ) : ℕ := (trapAt N i).above
def Bl (N : Nodes) (i : ℕ) : ℕ := (trapAt N i).below
def XL (g : Geo) (N : Nodes) (i : ℕ) : ℚ := g.xv (trapAt N i).left
def XR (g : Geo) (N : Nodes) (i : ℕ) : ℚ := g.xv (trapAt N i).right

/-- The links of the nodes are those of the neighbours. -/
structure CanonU (g : Geo) (N : Nodes) : Prop where
  c : Canon (Lf N) (Ab N) (XL g N) (XR g N) (UR N) (UL N)
structure CanonL (g : Geo) (N : Nodes) : Prop where
  c : Canon (Lf N) (Bl N) (XL g N) (XR g N) (LR N) (LL N)

variable {g : Geo} {nodes nodes' : Nodes} {e t a b la ra m : ℕ} {lo ro po : Option ℕ}

theorem Split.a_ne (s : Split g.edges nodes nodes' e t a b la ra lo ro) (ht : isLeaf nodes t = true) : a ≠ t := by
  have := isLeaf_lt ht
  rcases s.above with ⟨h, -⟩ | ⟨-, h, -⟩
  · omega
  · exact h

theorem Split.b_ne (s : Split g.edges nodes nodes' e t a b la ra lo ro) (ht : isLeaf nodes t = true) : b ≠ t := by
  have := isLeaf_lt ht
  rcases s.below with ⟨h, -⟩ | ⟨-, h, -⟩
  · omega
  · exact h

theorem Cut.ne_above (hg : g.Good) {T : Trap} (c : Cut g T e la ra lo ro) (hT : g.xv T.left < g.xv T.right) :
    e ≠ T.above ∧ e ≠ T.below := by
  obtain ⟨b1, -⟩ := c.bounds hg hT
  obtain ⟨w1, w2⟩ := mid_lt b1
  have := c.mid _ w1 w2
  constructor
  · intro h; rw [← h] at this; exact lt_irrefl _ this.2
  · intro h; rw [← h] at this; exact lt_irrefl _ this.1

theorem Split.geoU (hg : g.Good) (d : Dec g m nodes) (d' : Dec g m nodes')
    (s : Split g.edges nodes nodes' e t a b la ra lo ro)
    (ht : isLeaf nodes t = true) (c : Cut g (trapAt nodes t) e la ra lo ro)
    (hA : a < nodes.length → ExtA g nodes e t a lo) (hB : b < nodes.length → ExtB g nodes e t b lo)
    (old : ∀ i, isLeaf nodes i = true → (trapAt nodes i).above = e → XR g nodes i ≤ XL g nodes t)
    (hpo : ¬ Lf nodes b → ∀ p, po = some p → Lf nodes p ∧ p ≠ t ∧ p ≠ a ∧ Ab nodes p = e ∧
      XR g nodes p = XL g nodes t ∧ lo = none)
    (hpo0 : po = none → ∀ i, Lf nodes i → Ab nodes i ≠ e) :
    StepGeo (Lf nodes) (Lf nodes') (Ab nodes) (Ab nodes') (XL g nodes) (XR g nodes) (XL g nodes') (XR g nodes')
      e t a b lo ro po := by
  have hT := d.trap t ht
  obtain ⟨b1, b2, b3, b4, b5⟩ := c.bounds hg hT.lt
  obtain ⟨a1, a2, a3, a4⟩ := s.fieldsA hA
  obtain ⟨c1, c2, c3, c4⟩ := s.fieldsB hB
  have hal : Lf nodes a → a < nodes.length := isLeaf_lt
  have hbl : Lf nodes b → b < nodes.length := isLeaf_lt
  have anew : ∀ l, lo = some l → (trapAt nodes' a).left = la := by
    intro l hl
    rcases a4 with q | q
    · exact q.2
    · have := (hA q.1).lo; rw [hl] at this; cases this
  refine
    { ht := ht, lt := fun i hi => (d.trap i hi).lt, lt' := fun i hi => (d'.trap i hi).lt, lf := s.leaf,
      ct := s.a_ne ht, ot := s.b_ne ht, co := s.ab,
      lon := fun l hl => ⟨fun q => by have := isLeaf_lt q; have := (s.left l hl).1; omega, (s.left l hl).2.1,
        (s.left l hl).2.2.1⟩,
      ron := fun l hl => ⟨fun q => by have := isLeaf_lt q; have := (s.right l hl).1; omega, (s.right l hl).2.1,
        (s.right l hl).2.2.1⟩,
      lr := ?_, keep := ?_, edc := a3, cN := ?_, cE := ?_, xrc := ?_, l := ?_, r := ?_, edo := c2,
      ne := (c.ne_above hg hT.lt).1, xro := ?_, old := old, oN := ?_, oE := ?_ }
  · intro l h1 h2; exact s.lr l h1 h2
  · intro i h1 h2 h3 h4
    have := bare_eq_fields (s.keep i (isLeaf_lt h1) h2 h3 h4)
    unfold Ab XL XR
    rw [this.1, this.2.1, this.2.2.2]; simp
  · intro h1 h2
    rcases a4 with q | q
    · unfold XL; rw [q.2]; exact (c.lo0 h2).2
    · exact absurd q.2.1 h1
  · intro h1
    have h := hA (hal h1)
    rcases a4 with q | q
    · have := hal h1; omega
    · refine ⟨h.lo, q.2.2.2.1, h.right, ?_⟩
      unfold XL; rw [q.2.2.2.2]
  · intro h; unfold XR; rw [a1]; exact (c.ro0 h).2
  · intro l hl
    obtain ⟨f1, f2, f3, f4⟩ := s.fieldsL hl
    unfold Ab XL XR
    rw [f1, f2, f4, anew l hl]
    exact ⟨rfl, rfl, (c.lo1 l hl).2.symm⟩
  · intro l hl
    obtain ⟨f1, f2, f3, f4⟩ := s.fieldsR hl
    unfold Ab XL XR
    rw [f1, f2, f4, a1]
    exact ⟨rfl, rfl, (c.ro1 l hl).2.symm⟩
  · unfold XL XR; rw [c1]; linarith
  · intro h1
    refine ⟨?_, hpo0⟩
    intro p hp
    obtain ⟨p1, p2, p3, p4, p5, p6⟩ := hpo h1 p hp
    refine ⟨p1, p2, p3, fun q => h1 (q ▸ p1), p4, p5, ?_⟩
    rcases c4 with q | q
    · unfold XL; rw [q.2]; exact (c.lo0 p6).2
    · exact absurd q.2.1 h1
  · intro h1
    have h := hB (hbl h1)
    rcases c4 with q | q
    · have := hbl h1; omega
    · refine ⟨h.above, ?_, h.right⟩
      unfold XL; rw [q.2.2.2.2]

theorem Split.geoL (hg : g.Good) (d : Dec g m nodes) (d' : Dec g m nodes')
    (s : Split g.edges nodes nodes' e t a b la ra lo ro)
    (ht : isLeaf nodes t = true) (c : Cut g (trapAt nodes t) e la ra lo ro)
    (hA : a < nodes.length → ExtA g nodes e t a lo) (hB : b < nodes.length → ExtB g nodes e t b lo)
    (old : ∀ i, isLeaf nodes i = true → (trapAt nodes i).below = e → XR g nodes i ≤ XL g nodes t)
    (hpo : ¬ Lf nodes a → ∀ p, po = some p → Lf nodes p ∧ p ≠ t ∧ p ≠ b ∧ Bl nodes p = e ∧
      XR g nodes p = XL g nodes t ∧ lo = none)
    (hpo0 : po = none → ∀ i, Lf nodes i → Bl nodes i ≠ e) :
    StepGeo (Lf nodes) (Lf nodes') (Bl nodes) (Bl nodes') (XL g nodes) (XR g nodes) (XL g nodes') (XR g nodes')
      e t b a lo ro po := by
  have hT := d.trap t ht
  obtain ⟨b1, b2, b3, b4, b5⟩ := c.bounds hg hT.lt
  obtain ⟨a1, a2, a3, a4⟩ := s.fieldsA hA
  obtain ⟨c1, c2, c3, c4⟩ := s.fieldsB hB
  have hal : Lf nodes a → a < nodes.length := isLeaf_lt
  have hbl : Lf nodes b → b < nodes.length := isLeaf_lt
  have bnew : ∀ l, lo = some l → (trapAt nodes' b).left = la := by
    intro l hl
    rcases c4 with q | q
    · exact q.2
    · have := (hB q.1).lo; rw [hl] at this; cases this
  refine
    { ht := ht, lt := fun i hi => (d.trap i hi).lt, lt' := fun i hi => (d'.trap i hi).lt,
      lf := fun i => (s.leaf i).trans (or_congr_right or_left_comm),
      ct := s.b_ne ht, ot := s.a_ne ht, co := s.ab.symm,
      lon := fun l hl => ⟨fun q => by have := isLeaf_lt q; have := (s.left l hl).1; omega, (s.left l hl).2.2.1,
        (s.left l hl).2.1⟩,
      ron := fun l hl => ⟨fun q => by have := isLeaf_lt q; have := (s.right l hl).1; omega, (s.right l hl).2.2.1,
        (s.right l hl).2.1⟩,
      lr := ?_, keep := ?_, edc := c3, cN := ?_, cE := ?_, xrc := ?_, l := ?_, r := ?_, edo := a2,
      ne := (c.ne_above hg hT.lt).2, xro := ?_, old := old, oN := ?_, oE := ?_ }
  · intro l h1 h2; exact s.lr l h1 h2
  · intro i h1 h2 h3 h4
    have := bare_eq_fields (s.keep i (isLeaf_lt h1) h2 h4 h3)
    unfold Bl XL XR
    rw [this.1, this.2.1, this.2.2.1]; simp
  · intro h1 h2
    rcases c4 with q | q
    · unfold XL; rw [q.2]; exact (c.lo0 h2).2
    · exact absurd q.2.1 h1
  · intro h1
    have h := hB (hbl h1)
    rcases c4 with q | q
    · have := hbl h1; omega
    · refine ⟨h.lo, q.2.2.2.1, h.right, ?_⟩
      unfold XL; rw [q.2.2.2.2]
  · intro h; unfold XR; rw [c1]; exact (c.ro0 h).2
  · intro l hl
    obtain ⟨f1, f2, f3, f4⟩ := s.fieldsL hl
    unfold Bl XL XR
    rw [f1, f2, f3, bnew l hl]
    exact ⟨rfl, rfl, (c.lo1 l hl).2.symm⟩
  · intro l hl
    obtain ⟨f1, f2, f3, f4⟩ := s.fieldsR hl
    unfold Bl XL XR
    rw [f1, f2, f3, c1]
    exact ⟨rfl, rfl, (c.ro1 l hl).2.symm⟩
  · unfold XL XR; rw [a1]; linarith
  · intro h1
    refine ⟨?_, hpo0⟩
    intro p hp
    obtain ⟨p1, p2, p3, p4, p5, p6⟩ := hpo h1 p hp
    refine ⟨p1, p2, p3, fun q => h1 (q ▸ p1), p4, p5, ?_⟩
    rcases a4 with q | q
    · unfold XL; rw [q.2]; exact (c.lo0 p6).2
    · exact absurd q.2.1 h1
  · intro h1
    have h := hA (hal h1)
    rcases a4 with q | q
    · have := hal h1; omega
    · refine ⟨h.below, ?_, h.right⟩
      unfold XL; rw [q.2.2.2.2]

theorem CanonU.split (hg : g.Good) (d' : Dec g m nodes') (h : CanonU g nodes)
    (G : StepGeo (Lf nodes) (Lf nodes') (Ab nodes) (Ab nodes') (XL g nodes) (XR g nodes) (XL g nodes') (XR g nodes')
      e t a b lo ro po)
    (S : LinkStep (Lf nodes) (Lf nodes') (UR nodes) (UL nodes) (UR nodes') (UL nodes') t a b lo ro po) :
    CanonU g nodes' :=
  ⟨h.c.step G S (fun _ _ hi hj => d'.left_above hg hi hj) (fun _ _ hi hj => d'.right_above hg hi hj)⟩

theorem CanonL.split (hg : g.Good) (d' : Dec g m nodes') (h : CanonL g nodes)
    (G : StepGeo (Lf nodes) (Lf nodes') (Bl nodes) (Bl nodes') (XL g nodes) (XR g nodes) (XL g nodes') (XR g nodes')
      e t b a lo ro po)
    (S : LinkStep (Lf nodes) (Lf nodes') (LR nodes) (LL nodes) (LR nodes') (LL nodes') t b a lo ro po) :
    CanonL g nodes' :=
  ⟨h.c.step G S (fun _ _ hi hj => d'.left_below hg hi hj) (fun _ _ hi hj => d'.right_below hg hi hj)⟩

/-- The links of a leaf are leaves. -/
theorem linksOk (d : Dec g m nodes) (hu : CanonU g nodes) (hl : CanonL g nodes) {t : ℕ} (ht : isLeaf nodes t = true) :
    LinksOk nodes t (trapAt nodes t) := by
  have hT := (d.trap t ht).lt
  intro o ho j hj
  simp only [List.mem_cons, List.not_mem_nil, or_false] at ho
  rcases ho with rfl | rfl | rfl | rfl
  · obtain ⟨h1, -, h3⟩ := (hu.c.l t ht j).mp hj
    refine ⟨h1, ?_⟩; rintro rfl; unfold XL XR at h3; linarith
  · obtain ⟨h1, -, h3⟩ := (hl.c.l t ht j).mp hj
    refine ⟨h1, ?_⟩; rintro rfl; unfold XL XR at h3; linarith
  · obtain ⟨h1, -, h3⟩ := (hu.c.r t ht j).mp hj
    refine ⟨h1, ?_⟩; rintro rfl; unfold XL XR at h3; linarith
  · obtain ⟨h1, -, h3⟩ := (hl.c.r t ht j).mp hj
    refine ⟨h1, ?_⟩; rintro rfl; unfold XL XR at h3; linarith

/-- The links of a trapezoid to the right of the parts already made. -/
theorem midLinks (d : Dec g m nodes) (hu : CanonU g nodes) (hl : CanonL g nodes) {t pa pb : ℕ}
    (ht : isLeaf nodes t = true) (ha : isLeaf nodes pa = true) (hb : isLeaf nodes pb = true) (hab : pa ≠ pb)
    (ea : (trapAt nodes pa).below = e) (eb : (trapAt nodes pb).above = e)
    (ne1 : e ≠ (trapAt nodes t).above) (ne2 : e ≠ (trapAt nodes t).below)
    (xa : XR g nodes pa = XL g nodes t) (xb : XR g nodes pb = XL g nodes t) : MidLinks nodes t pa pb := by
  have hT := (d.trap t ht).lt
  have hpa := (d.trap pa ha).lt
  have hpb := (d.trap pb hb).lt
  unfold XL XR at xa xb
  refine ⟨linksOk d hu hl ht, hab, fun h => (hu.c.l t ht pa).mpr ⟨ha, h, xa⟩, fun h => (hl.c.l t ht pb).mpr ⟨hb, h, xb⟩,
    ?_, ?_, ⟨?_, ?_⟩, ⟨?_, ?_⟩⟩
  · intro h; exact ne1 (eb.symm.trans ((hu.c.l t ht pb).mp h).2.1)
  · intro h; exact ne2 (ea.symm.trans ((hl.c.l t ht pa).mp h).2.1)
  · intro h; have := ((hu.c.r t ht pa).mp h).2.2; unfold XL XR at this; linarith
  · intro h; have := ((hu.c.r t ht pb).mp h).2.2; unfold XL XR at this; linarith
  · intro h; have := ((hl.c.r t ht pa).mp h).2.2; unfold XL XR at this; linarith
  · intro h; have := ((hl.c.r t ht pb).mp h).2.2; unfold XL XR at this; linarith

end Rene.Seidel
