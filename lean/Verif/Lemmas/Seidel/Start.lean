import Verif.Lemmas.Seidel.Mid2

namespace Rene.Seidel
open Rene Spec

variable {g : Geo} {nodes nodes' : Nodes} {e t a b la ra m : ℕ} {lo ro : Option ℕ}

/-- Adding the edge to the trapezoid where it begins. -/
theorem St.core (hg : g.Good) (he : e < g.n) (hem : e < m) (S : St g m nodes)
    (fresh : ∀ i, isLeaf nodes i = true → (trapAt nodes i).above ≠ e ∧ (trapAt nodes i).below ≠ e) {rest : List ℕ}
    (hc : Chn g nodes e (t :: rest)) {N : Nodes}
    (s : Split g.edges nodes N e t nodes.length (nodes.length + 1) (g.lft e) ra lo ro)
    (c : Cut g (trapAt nodes t) e (g.lft e) ra lo ro)
    (lu : LinkStep (Lf nodes) (Lf N) (UR nodes) (UL nodes) (UR N) (UL N) t nodes.length (nodes.length + 1) lo ro none)
    (ll : LinkStep (Lf nodes) (Lf N) (LR nodes) (LL nodes) (LR N) (LL N) t (nodes.length + 1) nodes.length lo ro none) :
    St g m N ∧ (∀ x, Free g x → g.xv (g.lft e) < x → x < g.xv ra → StopAt g N x (g.f e x)) ∧
    (∀ i ∈ rest, isLeaf N i = true ∧ (trapAt N i).bare = (trapAt nodes i).bare) ∧
    (trapAt N nodes.length).below = e ∧ (trapAt N (nodes.length + 1)).above = e ∧
    (trapAt N nodes.length).right = ra ∧ (trapAt N (nodes.length + 1)).right = ra ∧
    (trapAt N nodes.length).above = (trapAt nodes t).above ∧
    (trapAt N (nodes.length + 1)).below = (trapAt nodes t).below ∧
    (∀ i, isLeaf N i = true → (trapAt N i).above = e → XR g N i ≤ g.xv ra) ∧
    (∀ i, isLeaf N i = true → (trapAt N i).below = e → XR g N i ≤ g.xv ra) := by
  have ht := hc.leaf t (by simp)
  have d := S.dec
  have hT := d.trap t ht
  obtain ⟨n1, n2⟩ := c.ne_above hg hT.lt
  obtain ⟨z1, z2, z3, z4⟩ := c.ends hg hT
  have hA : nodes.length < nodes.length → ExtA g nodes e t nodes.length lo := fun h => absurd h (lt_irrefl _)
  have hB : nodes.length + 1 < nodes.length → ExtB g nodes e t (nodes.length + 1) lo := fun h => by omega
  obtain ⟨a1, a2, a3, a4⟩ := s.fieldsA hA
  obtain ⟨c1, c2, c3, c4⟩ := s.fieldsB hB
  have yl := hg.onL e he
  have res := S.split hg hem s ht c hA hB (fun i hi q => absurd q (fresh i hi).1) (fun i hi q => absurd q (fresh i hi).2)
    (poU := none) (poL := none) (by simp) (fun _ i hi => (fresh i hi).1) (by simp) (fun _ i hi => (fresh i hi).2)
    lu ll (fun _ _ => ⟨yl.symm.le, by rw [yl]; exact z2⟩) (fun _ _ => ⟨by rw [yl]; exact z1, yl.le⟩)
  refine ⟨res.1, fun x hx h1 h2 => res.2 x hx h1 h2, ?_, a2, c2, a1, c1, a3, c3, ?_, ?_⟩
  · intro i hi
    have hil := hc.leaf i (List.mem_cons_of_mem _ hi)
    have hit : i ≠ t := by
      rintro rfl
      have := hc.right d i hi
      linarith [hT.lt]
    have hlt := isLeaf_lt hil
    exact ⟨(s.leaf i).mpr (Or.inl ⟨hil, hit⟩), s.keep i hlt hit (by omega) (by omega)⟩
  · intro i hi hie
    rcases s.leaf_cases hi with k | k | k | k | ⟨k1, k2, k3, k4, k5⟩
    · rw [k, a3] at hie; exact absurd hie.symm n1
    · rw [k]; unfold XR; rw [c1]
    · rw [(s.fieldsL k).2.2.2] at hie; exact absurd hie.symm n1
    · rw [(s.fieldsR k).2.2.2] at hie; exact absurd hie.symm n1
    · have f := bare_eq_fields k5
      exact absurd (by rw [← f.2.2.2]; exact hie) (fresh i k1).1
  · intro i hi hie
    rcases s.leaf_cases hi with k | k | k | k | ⟨k1, k2, k3, k4, k5⟩
    · rw [k]; unfold XR; rw [a1]
    · rw [k, c3] at hie; exact absurd hie.symm n2
    · rw [(s.fieldsL k).2.2.1] at hie; exact absurd hie.symm n2
    · rw [(s.fieldsR k).2.2.1] at hie; exact absurd hie.symm n2
    · have f := bare_eq_fields k5
      exact absurd (by rw [← f.2.2.1]; exact hie) (fresh i k1).2

theorem St.first (hg : g.Good) (he : e < g.n) (hem : e < m) (S : St g m nodes)
    (fresh : ∀ i, isLeaf nodes i = true → (trapAt nodes i).above ≠ e ∧ (trapAt nodes i).below ≠ e) {t' : ℕ}
    {rest : List ℕ} (hc : Chn g nodes e (t :: t' :: rest)) (hl : g.xv (trapAt nodes t).left ≤ g.xv (g.lft e)) :
    ∃ N a b, addEdgeToFirst g.edges g.endpoints nodes e t = .ok (N, a, b) ∧ Mid g m N e t' a b ∧
      Chn g N e (t' :: rest) ∧ ∀ x y, StopAt g nodes x y → StopAt g N x y := by
  have ht := hc.leaf t (by simp)
  have d := S.dec
  have hT := d.trap t ht
  have ml := linksOk d S.cu S.cl ht
  have htot := addEdgeToFirst_total (edges := g.edges) (endpoints := g.endpoints) (e := e) ht ml
  have hs := firstP_split (edges := g.edges) (endpoints := g.endpoints) (e := e) (ur := (trapAt nodes t).upperRight)
    (lr := (trapAt nodes t).lowerRight) (ul := (trapAt nodes t).upperLeft) (ll := (trapAt nodes t).lowerLeft) ht
  obtain ⟨lu, ll⟩ := first_links (edges := g.edges) (endpoints := g.endpoints) (e := e) ht ml rfl rfl
  have hc' := hc
  obtain ⟨⟨h1, h2, h3, h4, h5, h6, h7⟩, h8⟩ := hc
  have vl : g.V (g.lft e) := Or.inl (hg.lft e he)
  have heq := hg.eq (g.lft e) (trapAt nodes t).left vl hT.vl
  generalize hlo : (if pt g.endpoints (edgeAt g.edges e).left = pt g.endpoints (trapAt nodes t).left then none
        else some (nodes.length + 3)) = lo at hs lu ll
  generalize hN : firstP g.edges g.endpoints nodes e t (trapAt nodes t).upperRight (trapAt nodes t).lowerRight
    (trapAt nodes t).upperLeft (trapAt nodes t).lowerLeft = N at hs lu ll htot
  have c : Cut g (trapAt nodes t) e (g.lft e) (trapAt nodes t).right lo none :=
    { he := he, vla := vl, vra := hT.vr, hl := h3, hr := by linarith [hT.lt],
      lo0 := fun q => by
        by_cases w : pt g.endpoints (edgeAt g.edges e).left = pt g.endpoints (trapAt nodes t).left
        · have := heq.mp w; exact ⟨this.le, this⟩
        · rw [if_neg w] at hlo; rw [q] at hlo; cases hlo
      lo1 := fun l q => by
        refine ⟨lt_of_le_of_ne hl ?_, rfl⟩
        intro w
        have : pt g.endpoints (edgeAt g.edges e).left = pt g.endpoints (trapAt nodes t).left := heq.mpr w.symm
        rw [if_pos this, q] at hlo; cases hlo
      ro0 := fun _ => ⟨h2.le, rfl⟩, ro1 := (by simp),
      mid := fun w w1 w2 => h4 w (by linarith) w2 w1 (by linarith) }
  obtain ⟨S', stp, kp, f1, f2, f3, f4, f5, f6, o1, o2⟩ := S.core hg he hem fresh hc' hs c lu ll
  obtain ⟨k1, k2⟩ := kp t' (by simp)
  obtain ⟨v1, v2, v3, v4⟩ := bare_eq_fields k2
  refine ⟨N, _, _, htot, ?_, h8.congr fun i hi => kp i hi, fun x y q => q.split hs ht⟩
  refine { st := S', ha := (hs.leaf _).mpr (by simp), hb := (hs.leaf _).mpr (by simp), ab := hs.ab, ea := f1, eb := f2,
           xa := ?_, xb := ?_, oldU := ?_, oldL := ?_, stp := ?_, lk := ?_, ll := ?_, rel := ?_ }
  · unfold XR XL; rw [f3, v1]; exact h5
  · unfold XR XL; rw [f4, v1]; exact h5
  · intro i hi hie; have := o1 i hi hie; unfold XL; rw [v1, ← h5]; exact this
  · intro i hi hie; have := o2 i hi hie; unfold XL; rw [v1, ← h5]; exact this
  · intro x hx x1 x2
    unfold XL at x2; rw [v1, ← h5] at x2
    exact stp x hx x1 x2
  · rw [v1]; exact h6
  · unfold XL; rw [v1, ← h5]; exact h3
  · unfold Rel at *; rw [v1, v3, v4, f5, f6]; exact h7

theorem St.single (hg : g.Good) (he : e < g.n) (hem : e < m) (S : St g m nodes)
    (fresh : ∀ i, isLeaf nodes i = true → (trapAt nodes i).above ≠ e ∧ (trapAt nodes i).below ≠ e)
    (hc : Chn g nodes e [t]) (hl : g.xv (trapAt nodes t).left ≤ g.xv (g.lft e)) :
    ∃ N, addEdgeToSingle g.edges g.endpoints nodes e t = .ok N ∧ St g m N ∧
      (∀ x, Free g x → g.xv (g.lft e) < x → x < g.xv (g.rgt e) → StopAt g N x (g.f e x)) ∧
      ∀ x y, StopAt g nodes x y → StopAt g N x y := by
  have ht := hc.leaf t (by simp)
  have d := S.dec
  have hT := d.trap t ht
  have ml := linksOk d S.cu S.cl ht
  have htot := addEdgeToSingle_total (edges := g.edges) (endpoints := g.endpoints) (e := e) ht ml
  have hs := singleP_split (edges := g.edges) (endpoints := g.endpoints) (e := e) (ur := (trapAt nodes t).upperRight)
    (lr := (trapAt nodes t).lowerRight) (ul := (trapAt nodes t).upperLeft) (ll := (trapAt nodes t).lowerLeft) ht
  obtain ⟨lu, ll⟩ := single_links (edges := g.edges) (endpoints := g.endpoints) (e := e) ht ml rfl rfl rfl
  have hc' := hc
  obtain ⟨h1, h2, h3, h4, h5⟩ := hc
  have vl : g.V (g.lft e) := Or.inl (hg.lft e he)
  have vr : g.V (g.rgt e) := Or.inl (hg.rgt e he)
  have heq := hg.eq (g.lft e) (trapAt nodes t).left vl hT.vl
  have heqr := hg.eq (g.rgt e) (trapAt nodes t).right vr hT.vr
  have hlo : ∀ lo, lo = (if pt g.endpoints (edgeAt g.edges e).left = pt g.endpoints (trapAt nodes t).left then none
        else if pt g.endpoints (edgeAt g.edges e).right = pt g.endpoints (trapAt nodes t).right then some (nodes.length + 3)
        else some (nodes.length + 5)) → (lo = none ↔ pt g.endpoints (g.lft e) = pt g.endpoints (trapAt nodes t).left) := by
    intro lo h
    unfold Geo.lft
    split_ifs at h <;> simp [*]
  have hro : ∀ lo, lo = (if pt g.endpoints (edgeAt g.edges e).right = pt g.endpoints (trapAt nodes t).right then none
        else some (nodes.length + 3)) → (lo = none ↔ pt g.endpoints (g.rgt e) = pt g.endpoints (trapAt nodes t).right) := by
    intro lo h
    unfold Geo.rgt
    split_ifs at h <;> simp [*]
  replace hlo := hlo _ rfl
  replace hro := hro _ rfl
  generalize (if pt g.endpoints (edgeAt g.edges e).left = pt g.endpoints (trapAt nodes t).left then none
        else if pt g.endpoints (edgeAt g.edges e).right = pt g.endpoints (trapAt nodes t).right then some (nodes.length + 3)
        else some (nodes.length + 5)) = lo at hs lu ll hlo
  generalize (if pt g.endpoints (edgeAt g.edges e).right = pt g.endpoints (trapAt nodes t).right then none
        else some (nodes.length + 3)) = ro at hs lu ll hro
  generalize hN : singleP g.edges g.endpoints nodes e t (trapAt nodes t).upperRight (trapAt nodes t).lowerRight
    (trapAt nodes t).upperLeft (trapAt nodes t).lowerLeft = N at hs lu ll htot
  have c : Cut g (trapAt nodes t) e (g.lft e) (g.rgt e) lo ro :=
    { he := he, vla := vl, vra := vr, hl := h4, hr := h3,
      lo0 := fun q => by
        have := heq.mp (hlo.mp q); exact ⟨this.le, this⟩
      lo1 := fun l q => by
        refine ⟨lt_of_le_of_ne hl ?_, rfl⟩
        intro w
        have := hlo.mpr (heq.mpr w.symm)
        rw [q] at this; cases this
      ro0 := fun q => by
        have := heqr.mp (hro.mp q)
        exact ⟨this.symm.le, this⟩
      ro1 := fun l q => by
        refine ⟨lt_of_le_of_ne h2 ?_, rfl⟩
        intro w
        have := hro.mpr (heqr.mpr w)
        rw [q] at this; cases this
      mid := fun w w1 w2 => h5 w (by linarith) (by linarith) w1 w2 }
  obtain ⟨S', stp, -⟩ := S.core hg he hem fresh hc' hs c lu ll
  exact ⟨N, htot, S', stp, fun x y q => q.split hs ht⟩

/-- Stops at points of edges with free abscissas. -/
def Stops (g : Geo) (m : ℕ) (nodes : Nodes) : Prop :=
  ∀ e < m, ∀ x, Free g x → g.xv (g.lft e) < x → x < g.xv (g.rgt e) → StopAt g nodes x (g.f e x)

/-- A search ends at a stop or in a trapezoid. -/
theorem Dec.stop_or (d : Dec g m nodes) {x y : ℚ} (hb : InBox g x y) : StopAt g nodes x y ∨
    ∃ j, isLeaf nodes j = true ∧ Walk g nodes x y 0 j ∧ Reg g (trapAt nodes j) x y := by
  obtain ⟨j, hw, h | ⟨n, hn, h⟩⟩ := d.total x y 0 d.rk.1
  · exact Or.inr ⟨j, h, hw, d.sound x y j hb hw h⟩
  · exact Or.inl ⟨j, n, hw, hn, h⟩

theorem edge_inBox (hg : g.Good) (he : e < g.n) {x : ℚ} (h1 : g.xv (g.lft e) ≤ x) (h2 : x ≤ g.xv (g.rgt e)) :
    InBox g x (g.f e x) := by
  have s : g.Sp e x := fun _ => ⟨h1, h2⟩
  have := (hg.inx _ (hg.lft e he)).1
  have := (hg.inx _ (hg.rgt e he)).2
  exact ⟨by linarith, by linarith, hg.bot_edge he s, hg.top_edge he s⟩

/-- No trapezoid contains a point of an edge. -/
theorem Stops.notReg (hg : g.Good) (d : Dec g m nodes) (h : Stops g m nodes) (hem : e < m) (he : e < g.n) {x : ℚ}
    (h1 : g.xv (g.lft e) ≤ x) (h2 : x ≤ g.xv (g.rgt e)) {j : ℕ} (hj : isLeaf nodes j = true) :
    ¬ Reg g (trapAt nodes j) x (g.f e x) := by
  rintro ⟨r1, r2, r3, r4⟩
  obtain ⟨δ, hδ, n1⟩ := Geo.f_near (trapAt nodes j).below e r3
  obtain ⟨δ', hδ', n2⟩ := Geo.f_near e (trapAt nodes j).above r4
  have hp := hg.pos e he
  -- a free abscissa nearby
  have key : ∃ w, Free g w ∧ |w - x| < δ ∧ |w - x| < δ' ∧ g.xv (trapAt nodes j).left < w ∧ w < g.xv (trapAt nodes j).right ∧
      g.xv (g.lft e) < w ∧ w < g.xv (g.rgt e) := by
    rcases lt_or_eq_of_le h2 with q | q
    · have hlt : x < min (min (x + δ) (x + δ')) (min (g.xv (trapAt nodes j).right) (g.xv (g.rgt e))) :=
        lt_min (lt_min (by linarith) (by linarith)) (lt_min r2 q)
      obtain ⟨w, w1, w2, w3⟩ := Geo.exists_between_notin hlt g.xs
      simp only [lt_min_iff] at w2
      obtain ⟨⟨w4, w5⟩, w6, w7⟩ := w2
      refine ⟨w, Geo.notin_xs w3, ?_, ?_, by linarith, w6, by linarith, w7⟩ <;> rw [abs_lt] <;> constructor <;> linarith
    · have hlt : max (max (x - δ) (x - δ')) (max (g.xv (trapAt nodes j).left) (g.xv (g.lft e))) < x :=
        max_lt (max_lt (by linarith) (by linarith)) (max_lt r1 (by linarith))
      obtain ⟨w, w1, w2, w3⟩ := Geo.exists_between_notin hlt g.xs
      simp only [max_lt_iff] at w1
      obtain ⟨⟨w4, w5⟩, w6, w7⟩ := w1
      refine ⟨w, Geo.notin_xs w3, ?_, ?_, w6, by linarith, w7, by linarith⟩ <;> rw [abs_lt] <;> constructor <;> linarith
  obtain ⟨w, w1, w2, w3, w4, w5, w6, w7⟩ := key
  exact d.not_stop ⟨edge_inBox hg he w6.le w7.le, w1⟩ (h e hem w w1 w6 w7) hj ⟨w4, w5, n1 w w2, n2 w w3⟩

theorem Stops.bnd (hg : g.Good) (d : Dec g m nodes) (hm : m ≤ g.n) (h : Stops g m nodes) : Bnd g m nodes := by
  have key : ∀ e < m, ∀ x, g.xv (g.lft e) ≤ x → x ≤ g.xv (g.rgt e) → StopAt g nodes x (g.f e x) := by
    intro e hem x h1 h2
    have he : e < g.n := by omega
    rcases d.stop_or (edge_inBox hg he h1 h2) with q | ⟨j, hj, -, hr⟩
    · exact q
    · exact absurd hr (h.notReg hg d hem he h1 h2 hj)
  refine ⟨fun e he x h1 h2 => key e he x h1.le h2.le, ?_, ?_⟩
  · intro e he
    have hn : e < g.n := by omega
    rw [hg.onL e hn]; exact key e he _ le_rfl (hg.pos e hn).le
  · intro e he
    have hn : e < g.n := by omega
    rw [hg.onR e hn]; exact key e he _ (hg.pos e hn).le le_rfl

end Rene.Seidel
