import Verif.Lemmas.Seidel.Find

/-! The collection of the trapezoids which an edge meets, and the addition of an edge. -/

namespace Rene.Seidel
open Rene Spec
variable {g : Geo} {nodes : Nodes} {e m : ℕ}

theorem orIndex_some {j : ℕ} (hj : j ≠ 0) (b : Option ℕ) : orIndex (some j) b = some j := by
  cases j with
  | zero => exact absurd rfl hj
  | succ n => rfl

theorem next_ok (hg : g.Good) (he : e < g.n) (hmn : m ≤ g.n) (S : St g m nodes) (hb : Bnd g m nodes)
    (h0 : isLeaf nodes 0 = false) {t : ℕ} (ht : isLeaf nodes t = true)
    (h1 : g.xv (g.lft e) < g.xv (trapAt nodes t).right) (h2 : g.xv (trapAt nodes t).right < g.xv (g.rgt e))
    (hM : MidT g e (trapAt nodes t)) :
    ∃ j, nextIndex (edgeAt g.edges e) g.endpoints (trapAt nodes t) = some j ∧ isLeaf nodes j = true ∧
      g.xv (trapAt nodes t).right = g.xv (trapAt nodes j).left ∧ (trapAt nodes j).left < g.k ∧
      Rel g e (trapAt nodes t).above (trapAt nodes t).below (trapAt nodes j) ∧ MidT g e (trapAt nodes j) := by
  have hT := S.dec.trap t ht
  set T := trapAt nodes t with hTT
  have hp : T.right < g.k := by
    rcases hT.vr with q | q | q
    · exact q
    · rw [q] at h1; have := (hg.inx _ (hg.lft e he)).1; linarith
    · rw [q] at h2; have := (hg.inx _ (hg.rgt e he)).2; linarith
  have he2 : e < g.n + 2 := by omega
  -- an abscissa where the edge is inside
  have hw : max (g.xv T.left) (g.xv (g.lft e)) < g.xv T.right := max_lt hT.lt h1
  obtain ⟨w1, w2⟩ := mid_lt hw
  set w := (max (g.xv T.left) (g.xv (g.lft e)) + g.xv T.right) / 2
  have wl : g.xv T.left < w := (le_max_left _ _).trans_lt w1
  have wl' : g.xv (g.lft e) < w := (le_max_right _ _).trans_lt w1
  obtain ⟨m1, m2⟩ := hM w wl w2 wl' (by linarith)
  have sew : g.Sp e w := fun _ => ⟨wl'.le, by linarith⟩
  have sep : g.Sp e (g.xv T.right) := fun _ => ⟨h1.le, h2.le⟩
  have ses : g.Sp e (max (g.xv T.left) (g.xv (g.lft e))) := fun _ => ⟨le_max_right _ _, by linarith⟩
  have sas := hT.sal.mono hT.sar (le_max_left (g.xv T.left) (g.xv (g.lft e))) hw.le
  have sbs := hT.sbl.mono hT.sbr (le_max_left (g.xv T.left) (g.xv (g.lft e))) hw.le
  have leA : g.f e (g.xv T.right) ≤ g.f T.above (g.xv T.right) :=
    hg.ord_le he2 hT.a2 ses sep sas hT.sar w1 w2 m2 hw.le le_rfl
  have leB : g.f T.below (g.xv T.right) ≤ g.f e (g.xv T.right) :=
    hg.ord_le hT.b2 he2 sbs hT.sbr ses sep w1 w2 m1 hw.le le_rfl
  have hne : g.f e (g.xv T.right) ≠ g.yv T.right := by
    intro q
    obtain ⟨d, hd, hdd⟩ := hg.own _ hp
    by_cases hde : e = d
    · subst hde
      rcases hdd with r | r <;> rw [r] at h1 h2 <;> linarith
    · have hy : g.yv T.right = g.f d (g.xv T.right) := by
        rcases hdd with r | r <;> rw [r]
        · exact hg.onL d hd
        · exact hg.onR d hd
      have hs : g.Sp d (g.xv T.right) := by
        intro _
        have := (hg.pos d hd).le
        rcases hdd with r | r <;> rw [r]
        · exact ⟨le_rfl, this⟩
        · exact ⟨this, le_rfl⟩
      rcases hg.nc e he d hd hde _ sep hs (by rw [q, hy]) with r | r <;> linarith
  have hcw := hg.cw e he T.right hp
  by_cases hlt : g.yv T.right < g.f e (g.xv T.right)
  · obtain ⟨j, j1, j2, j3⟩ := S.dec.exists_upper hg hb hmn ht hp (lt_of_lt_of_le hlt leA)
    have hJ := S.dec.trap j j1
    have hU : T.upperRight = some j := (S.cu.c.r t ht j).mpr ⟨j1, j2, j3⟩
    have hj0 : j ≠ 0 := by rintro rfl; rw [h0] at j1; cases j1
    have hjk : (trapAt nodes j).left < g.k := by
      have := hg.inx _ hp
      rcases hJ.vl with q | q | q
      · exact q
      · rw [q] at j3; linarith
      · rw [q] at j3; linarith
    have hy := hg.yeq _ hp _ hjk j3
    refine ⟨j, ?_, j1, j3, hjk, Or.inl ⟨?_, j2⟩, ?_⟩
    · unfold nextIndex
      rw [if_pos (hcw.mpr hlt), hU, orIndex_some hj0]
    · rw [← j3, ← hy]; exact hlt
    · intro v v1 v2 v3 v4
      have hwall := (S.wall j j1 hjk).1
      rw [← hy] at hwall
      rw [← j3] at v1 hwall
      have lmin : v < min (g.xv (trapAt nodes j).right) (g.xv (g.rgt e)) := lt_min v2 v4
      have seM : g.Sp e (min (g.xv (trapAt nodes j).right) (g.xv (g.rgt e))) :=
        fun _ => ⟨by linarith, min_le_right _ _⟩
      have jlt := hJ.sbl
      rw [← j3] at jlt
      have jla := hJ.sal
      rw [← j3] at jla
      have sbM := jlt.mono hJ.sbr (v1.trans lmin).le (min_le_left _ _)
      have saM := jla.mono hJ.sar (v1.trans lmin).le (min_le_left _ _)
      refine ⟨hg.ord hJ.b2 he2 jlt sbM sep seM le_rfl (v1.trans lmin).le (by linarith) v1 lmin, ?_⟩
      rw [j2] at sas m2
      exact hg.ord he2 hJ.a2 ses seM sas saM w1.le (by linarith) m2 (by linarith) lmin
  · have hgt : g.f e (g.xv T.right) < g.yv T.right := lt_of_le_of_ne (not_lt.mp hlt) hne
    obtain ⟨j, j1, j2, j3⟩ := S.dec.exists_lower hg hb hmn ht hp (lt_of_le_of_lt leB hgt)
    have hJ := S.dec.trap j j1
    have hU : T.lowerRight = some j := (S.cl.c.r t ht j).mpr ⟨j1, j2, j3⟩
    have hj0 : j ≠ 0 := by rintro rfl; rw [h0] at j1; cases j1
    have hjk : (trapAt nodes j).left < g.k := by
      have := hg.inx _ hp
      rcases hJ.vl with q | q | q
      · exact q
      · rw [q] at j3; linarith
      · rw [q] at j3; linarith
    have hy := hg.yeq _ hp _ hjk j3
    refine ⟨j, ?_, j1, j3, hjk, Or.inr ⟨?_, j2⟩, ?_⟩
    · unfold nextIndex
      rw [if_neg (fun q => hlt (hcw.mp q)), hU, orIndex_some hj0]
    · rw [← j3, ← hy]; exact hgt
    · intro v v1 v2 v3 v4
      have hwall := (S.wall j j1 hjk).2
      rw [← hy] at hwall
      rw [← j3] at v1 hwall
      have lmin : v < min (g.xv (trapAt nodes j).right) (g.xv (g.rgt e)) := lt_min v2 v4
      have seM : g.Sp e (min (g.xv (trapAt nodes j).right) (g.xv (g.rgt e))) :=
        fun _ => ⟨by linarith, min_le_right _ _⟩
      have jlt := hJ.sbl
      rw [← j3] at jlt
      have jla := hJ.sal
      rw [← j3] at jla
      have sbM := jlt.mono hJ.sbr (v1.trans lmin).le (min_le_left _ _)
      have saM := jla.mono hJ.sar (v1.trans lmin).le (min_le_left _ _)
      refine ⟨?_, hg.ord he2 hJ.a2 sep seM jla saM le_rfl (v1.trans lmin).le (by linarith) v1 lmin⟩
      rw [j2] at sbs m1
      exact hg.ord hJ.b2 he2 sbs sbM ses seM w1.le (by linarith) m1 (by linarith) lmin

open Classical in
/-- Number of the leaves which start not before the given one. -/
noncomputable def rest (g : Geo) (nodes : Nodes) (t : ℕ) : ℕ :=
  ((Finset.range nodes.length).filter fun i => XL g nodes t ≤ XL g nodes i).card

theorem rest_lt {t j : ℕ} (ht : t < nodes.length) (h : XL g nodes t < XL g nodes j) :
    rest g nodes j < rest g nodes t := by
  classical
  unfold rest
  refine Finset.card_lt_card ?_
  rw [Finset.ssubset_iff_of_subset]
  · exact ⟨t, by simp [ht], by simp [ht, h]⟩
  · intro i
    simp only [Finset.mem_filter]
    rintro ⟨a, b⟩; exact ⟨a, by linarith⟩

theorem rest_le (t : ℕ) : rest g nodes t ≤ nodes.length := by
  classical
  unfold rest
  exact (Finset.card_filter_le _ _).trans (by simp)

theorem collect_ok (hg : g.Good) (he : e < g.n) (hmn : m ≤ g.n) (S : St g m nodes) (hb : Bnd g m nodes)
    (h0 : isLeaf nodes 0 = false) : ∀ (fuel t : ℕ), rest g nodes t < fuel → isLeaf nodes t = true →
    g.xv (g.lft e) < g.xv (trapAt nodes t).right → g.xv (trapAt nodes t).left < g.xv (g.rgt e) →
    MidT g e (trapAt nodes t) →
    ∃ ts, collectRight (edgeAt g.edges e) g.endpoints nodes fuel t = .ok (t :: ts) ∧ Chn g nodes e (t :: ts)
  | 0, t, hf, _, _, _, _ => by omega
  | fuel + 1, t, hf, ht, h1, h2, hM => by
    have hT := S.dec.trap t ht
    have hlt : (pt g.endpoints (trapAt nodes t).right).ltB (pt g.endpoints (edgeAt g.edges e).right) = true ↔
        g.xv (trapAt nodes t).right < g.xv (g.rgt e) := by
      rw [Point.ltB_iff]; exact hg.lt _ _ hT.vr (Or.inl (hg.rgt e he))
    unfold collectRight
    by_cases hc : g.xv (trapAt nodes t).right < g.xv (g.rgt e)
    · obtain ⟨j, j1, j2, j3, j4, j5, j6⟩ := next_ok hg he hmn S hb h0 ht h1 hc hM
      have hJ := S.dec.trap j j2
      have hr : rest g nodes j < rest g nodes t := rest_lt (isLeaf_lt ht) (by unfold XL; rw [← j3]; exact hT.lt)
      obtain ⟨ts, q1, q2⟩ := collect_ok hg he hmn S hb h0 fuel j (by omega) j2 (by have := hJ.lt; linarith)
        (by linarith) j6
      refine ⟨j :: ts, ?_, ⟨ht, hc, h1, hM, j3, j4, j5⟩, q2⟩
      rw [if_pos (hlt.mpr hc), j1]
      simp only [getTrapezoid, j2, if_true, bind, Except.bind, q1]
      rfl
    · refine ⟨[], ?_, ht, not_lt.mp hc, h2, h1, hM⟩
      rw [if_neg (fun q => hc (hlt.mp q))]
      rfl

theorem addEdge_ok (hg : g.Good) (he : e < g.n) (S : St g e nodes) (hs : Stops g e nodes)
    (h0 : isLeaf nodes 0 = false) :
    ∃ N, addEdge g.edges g.endpoints nodes e = .ok N ∧ St g (e + 1) N ∧ Stops g (e + 1) N := by
  have hb := hs.bnd hg S.dec he.le
  obtain ⟨j, j1, j2, j3, j4, j5⟩ := descend_ok hg he le_rfl S.dec
  have hp := hg.pos e he
  obtain ⟨ts, c1, c2⟩ := collect_ok hg he he.le S hb h0 (nodes.length + 1) j
    (by have := rest_le (g := g) (nodes := nodes) j; omega) j2 j4 (by linarith) j5
  have hnd := c2.nodup S.dec
  have fresh : ∀ i, isLeaf nodes i = true → (trapAt nodes i).above ≠ e ∧ (trapAt nodes i).below ≠ e := by
    intro i hi
    have := S.dec.edg i hi
    omega
  have S' : St g (e + 1) nodes := ⟨S.dec.mono (by omega), S.cu, S.cl, S.wall⟩
  have hfind : findIntersecting g.edges g.endpoints nodes e = .ok (j :: ts) := by
    unfold findIntersecting
    simp only [j1, getTrapezoid, j2, if_true, bind, Except.bind, c1]
  have fin : ∀ N, (∀ x, Free g x → g.xv (g.lft e) < x → x < g.xv (g.rgt e) → StopAt g N x (g.f e x)) →
      (∀ x y, StopAt g nodes x y → StopAt g N x y) → Stops g (e + 1) N := by
    intro N a b d hd x hx x1 x2
    rcases Nat.lt_or_ge d e with q | q
    · exact b _ _ (hs d q x hx x1 x2)
    · have : d = e := by omega
      subst this; exact a x hx x1 x2
  cases ts with
  | nil =>
    obtain ⟨N, n1, n2, n3, n4⟩ := S'.single hg he (by omega) fresh c2 j3
    refine ⟨N, ?_, n2, fin N n3 n4⟩
    unfold addEdge
    simp only [hfind, bind, Except.bind, hnd, not_true, if_false]
    exact n1
  | cons t' rest =>
    obtain ⟨M, a, b, n1, n2, n3, n4⟩ := S'.first hg he (by omega) fresh c2 j3
    obtain ⟨N, p1, p2, p3, p4⟩ := n2.rest hg he (by omega) n3
    refine ⟨N, ?_, p2, fin N p3 (fun x y q => p4 x y (n4 x y q))⟩
    unfold addEdge
    simp only [hfind, bind, Except.bind, hnd, not_true, if_false, n1]
    exact p1

end Rene.Seidel
