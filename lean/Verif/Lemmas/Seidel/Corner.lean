import Verif.Lemmas.Seidel.Dec

/-! Leaves are disjoint, cover the box, and have neighbours. -/

namespace Rene.Seidel
open Rene Spec

variable {g : Geo} {m : ℕ} {nodes : Nodes}

theorem Geo.Good.V_le (hg : g.Good) {i : ℕ} (h : g.V i) : g.xv (g.k + 2) ≤ g.xv i ∧ g.xv i ≤ g.xv (g.k + 3) := by
  rcases h with h | rfl | rfl
  · have := hg.inx i h; exact ⟨this.1.le, this.2.le⟩
  · exact ⟨le_rfl, hg.box.le⟩
  · exact ⟨hg.box.le, le_rfl⟩

theorem Geo.Good.bot_le (hg : g.Good) {e : ℕ} (he : e < g.n + 2) {t : ℚ} (h : g.Sp e t) :
    g.f (g.n + 1) t ≤ g.f e t := by
  have : e < g.n ∨ e = g.n ∨ e = g.n + 1 := by omega
  rcases this with h1 | rfl | rfl
  · exact (hg.bot_edge h1 h).le
  · exact (hg.tb t).le
  · exact le_rfl

theorem Geo.Good.le_top (hg : g.Good) {e : ℕ} (he : e < g.n + 2) {t : ℚ} (h : g.Sp e t) :
    g.f e t ≤ g.f g.n t := by
  have : e < g.n ∨ e = g.n ∨ e = g.n + 1 := by omega
  rcases this with h1 | rfl | rfl
  · exact (hg.top_edge h1 h).le
  · exact le_rfl
  · exact (hg.tb t).le

theorem TrapOk.inBox (hg : g.Good) {T : Trap} (h : TrapOk g T) {t y : ℚ} (hr : Reg g T t y) : InBox g t y := by
  obtain ⟨r1, r2, r3, r4⟩ := hr
  have h1 := hg.bot_le h.b2 (h.sbl.mono h.sbr r1.le r2.le)
  have h2 := hg.le_top h.a2 (h.sal.mono h.sar r1.le r2.le)
  exact ⟨lt_of_le_of_lt (hg.V_le h.vl).1 r1, lt_of_lt_of_le r2 (hg.V_le h.vr).2, by linarith, by linarith⟩

/-- The abscissas of the end points. -/
def Geo.xs (g : Geo) : Finset ℚ := (Finset.range g.k).image g.xv

theorem Geo.notin_xs {t : ℚ} (h : t ∉ g.xs) : ∀ i < g.k, t ≠ g.xv i := by
  rintro i hi rfl
  exact h (Finset.mem_image_of_mem _ (Finset.mem_range.mpr hi))

/-- Leaves with a common part are equal. -/
theorem Dec.eq_of_overlap (hg : g.Good) (d : Dec g m nodes) {i j : ℕ} (hi : isLeaf nodes i = true)
    (hj : isLeaf nodes j = true) {u v : ℚ} (huv : u < v)
    (i1 : g.xv (trapAt nodes i).left ≤ u) (i2 : v ≤ g.xv (trapAt nodes i).right)
    (j1 : g.xv (trapAt nodes j).left ≤ u) (j2 : v ≤ g.xv (trapAt nodes j).right)
    (hov : ∀ t, u < t → t < v → ∃ y, g.f (trapAt nodes i).below t < y ∧ y < g.f (trapAt nodes i).above t ∧
      g.f (trapAt nodes j).below t < y ∧ y < g.f (trapAt nodes j).above t) : i = j := by
  obtain ⟨t, t1, t2, t3⟩ := Geo.exists_between_notin huv g.xs
  obtain ⟨y, y1, y2, y3, y4⟩ := hov t t1 t2
  have r1 : Reg g (trapAt nodes i) t y := ⟨by linarith, by linarith, y1, y2⟩
  have r2 : Reg g (trapAt nodes j) t y := ⟨by linarith, by linarith, y3, y4⟩
  have hgen : Gen g t y := ⟨(d.trap i hi).inBox hg r1, Geo.notin_xs t3⟩
  exact (d.back t y i hgen hi r1).unique (d.back t y j hgen hj r2) hi hj

theorem Dec.uniq_above (hg : g.Good) (d : Dec g m nodes) {i j : ℕ} (hi : isLeaf nodes i = true)
    (hj : isLeaf nodes j = true) (he : (trapAt nodes i).above = (trapAt nodes j).above) {u v : ℚ} (huv : u < v)
    (i1 : g.xv (trapAt nodes i).left ≤ u) (i2 : v ≤ g.xv (trapAt nodes i).right)
    (j1 : g.xv (trapAt nodes j).left ≤ u) (j2 : v ≤ g.xv (trapAt nodes j).right) : i = j := by
  refine d.eq_of_overlap hg hi hj huv i1 i2 j1 j2 ?_
  intro t t1 t2
  have a1 := (d.trap i hi).ord t (by linarith) (by linarith)
  have a2 := (d.trap j hj).ord t (by linarith) (by linarith)
  rw [← he] at a2 ⊢
  obtain ⟨y, y1, y2⟩ := exists_between (max_lt a1 a2)
  exact ⟨y, (le_max_left _ _).trans_lt y1, y2, (le_max_right _ _).trans_lt y1, y2⟩

theorem Dec.uniq_below (hg : g.Good) (d : Dec g m nodes) {i j : ℕ} (hi : isLeaf nodes i = true)
    (hj : isLeaf nodes j = true) (he : (trapAt nodes i).below = (trapAt nodes j).below) {u v : ℚ} (huv : u < v)
    (i1 : g.xv (trapAt nodes i).left ≤ u) (i2 : v ≤ g.xv (trapAt nodes i).right)
    (j1 : g.xv (trapAt nodes j).left ≤ u) (j2 : v ≤ g.xv (trapAt nodes j).right) : i = j := by
  refine d.eq_of_overlap hg hi hj huv i1 i2 j1 j2 ?_
  intro t t1 t2
  have a1 := (d.trap i hi).ord t (by linarith) (by linarith)
  have a2 := (d.trap j hj).ord t (by linarith) (by linarith)
  rw [← he] at a2 ⊢
  obtain ⟨y, y1, y2⟩ := exists_between (lt_min a1 a2)
  exact ⟨y, y1, y2.trans_le (min_le_left _ _), y1, y2.trans_le (min_le_right _ _)⟩

theorem Dec.left_above (hg : g.Good) (d : Dec g m nodes) {i j : ℕ} (hi : isLeaf nodes i = true)
    (hj : isLeaf nodes j = true) (he : (trapAt nodes i).above = (trapAt nodes j).above)
    (hx : g.xv (trapAt nodes i).left = g.xv (trapAt nodes j).left) : i = j :=
  d.uniq_above hg hi hj he (lt_min (d.trap i hi).lt (hx ▸ (d.trap j hj).lt)) le_rfl (min_le_left _ _) hx.symm.le
    (min_le_right _ _)

theorem Dec.left_below (hg : g.Good) (d : Dec g m nodes) {i j : ℕ} (hi : isLeaf nodes i = true)
    (hj : isLeaf nodes j = true) (he : (trapAt nodes i).below = (trapAt nodes j).below)
    (hx : g.xv (trapAt nodes i).left = g.xv (trapAt nodes j).left) : i = j :=
  d.uniq_below hg hi hj he (lt_min (d.trap i hi).lt (hx ▸ (d.trap j hj).lt)) le_rfl (min_le_left _ _) hx.symm.le
    (min_le_right _ _)

theorem Dec.right_above (hg : g.Good) (d : Dec g m nodes) {i j : ℕ} (hi : isLeaf nodes i = true)
    (hj : isLeaf nodes j = true) (he : (trapAt nodes i).above = (trapAt nodes j).above)
    (hx : g.xv (trapAt nodes i).right = g.xv (trapAt nodes j).right) : i = j :=
  d.uniq_above hg hi hj he (max_lt (d.trap i hi).lt (hx ▸ (d.trap j hj).lt)) (le_max_left _ _) le_rfl
    (le_max_right _ _) hx.le

theorem Dec.right_below (hg : g.Good) (d : Dec g m nodes) {i j : ℕ} (hi : isLeaf nodes i = true)
    (hj : isLeaf nodes j = true) (he : (trapAt nodes i).below = (trapAt nodes j).below)
    (hx : g.xv (trapAt nodes i).right = g.xv (trapAt nodes j).right) : i = j :=
  d.uniq_below hg hi hj he (max_lt (d.trap i hi).lt (hx ▸ (d.trap j hj).lt)) (le_max_left _ _) le_rfl
    (le_max_right _ _) hx.le

/-- Every search ends at a leaf or at a node which it does not pass. -/
theorem Dec.total (d : Dec g m nodes) (t y : ℚ) : ∀ i, i < nodes.length → ∃ j, Walk g nodes t y i j ∧
    (isLeaf nodes j = true ∨ ∃ n, inner nodes j = some n ∧ nxt g nodes t y j = none) := by
  obtain ⟨h0, rk, hrk⟩ := d.rk
  intro i
  generalize hK : depthBound nodes rk i = K
  induction K using Nat.strong_induction_on generalizing i with
  | _ K ih =>
    intro hi
    rcases leaf_or_inner hi with h | ⟨n, h⟩
    · exact ⟨i, Relation.ReflTransGen.refl, Or.inl h⟩
    · rcases hn : nxt g nodes t y i with _ | j
      · exact ⟨i, Relation.ReflTransGen.refl, Or.inr ⟨n, h, hn⟩⟩
      · obtain ⟨n', hn', hj⟩ := nxt_child hn
        have hc := hrk i n' hn' j hj
        obtain ⟨k, hk1, hk2⟩ := ih _ (hK ▸ depthBound_child hn' hc.2) j rfl hc.1
        exact ⟨k, (Walk.one hn).trans hk1, hk2⟩

theorem Dec.total_leaf (d : Dec g m nodes) {t y : ℚ} (hgen : Gen g t y) (hy : ∀ e < m, y ≠ g.f e t) :
    ∃ j, Walk g nodes t y 0 j ∧ isLeaf nodes j = true ∧ Reg g (trapAt nodes j) t y := by
  obtain ⟨j, hw, h | ⟨n, hn, h⟩⟩ := d.total t y 0 d.rk.1
  · exact ⟨j, hw, h, d.sound t y j hgen.1 hw h⟩
  · exfalso
    cases n with
    | leaf T => have := inner_isInner hn; simp [Node.isInner] at this
    | x p l r =>
      rw [nxt_x hn] at h
      have := hgen.2 p (d.xnode j p l r hn)
      split_ifs at h with h1 h2
      exact this (le_antisymm (not_lt.mp h2) (not_lt.mp h1))
    | y e b a =>
      rw [nxt_y hn] at h
      have := hy e (d.soundY t y j e b a hgen.1 hw hn).1
      split_ifs at h with h1 h2
      exact this (le_antisymm (not_lt.mp h1) (not_lt.mp h2))

/-- The search stops at a node. -/
def StopAt (g : Geo) (nodes : Nodes) (t y : ℚ) : Prop :=
  ∃ j n, Walk g nodes t y 0 j ∧ inner nodes j = some n ∧ nxt g nodes t y j = none

theorem Walk.stop_eq {t y : ℚ} {i j k : ℕ} (h1 : Walk g nodes t y i j) (h2 : Walk g nodes t y i k)
    (hj : nxt g nodes t y j = none) (hk : nxt g nodes t y k = none) : j = k := by
  induction h1 using Relation.ReflTransGen.head_induction_on with
  | refl =>
    rcases Relation.ReflTransGen.cases_head h2 with h | ⟨c, h, _⟩
    · exact h
    · rw [hj] at h; cases h
  | head hstep _ ih =>
    rcases Relation.ReflTransGen.cases_head h2 with h | ⟨c, h, h3⟩
    · subst h; rw [hk] at hstep; cases hstep
    · rw [hstep] at h; cases h
      exact ih h3

theorem Dec.not_stop (d : Dec g m nodes) {t y : ℚ} (hgen : Gen g t y) (hs : StopAt g nodes t y) {i : ℕ}
    (hi : isLeaf nodes i = true) : ¬ Reg g (trapAt nodes i) t y := by
  intro hr
  obtain ⟨j, n, hw, hn, hnx⟩ := hs
  have := hw.stop_eq (d.back t y i hgen hi hr) hnx (nxt_leaf hi)
  subst this
  rw [leaf_not_inner hi] at hn; cases hn

theorem StopAt.split {nodes' : Nodes} {e t a b la ra : ℕ} {lo ro : Option ℕ}
    (s : Split g.edges nodes nodes' e t a b la ra lo ro) (ht : isLeaf nodes t = true) {x y : ℚ}
    (h : StopAt g nodes x y) : StopAt g nodes' x y := by
  obtain ⟨j, n, hw, hn, hnx⟩ := h
  have h1 := s.inner_keep ht hn
  refine ⟨j, n, s.lift ht hw, h1, ?_⟩
  rw [nxt_congr (h1.trans hn.symm)]; exact hnx

/-- Searches for points of edges and for end points stop. -/
structure Bnd (g : Geo) (m : ℕ) (nodes : Nodes) : Prop where
  edge : ∀ e < m, ∀ t, g.xv (g.lft e) < t → t < g.xv (g.rgt e) → StopAt g nodes t (g.f e t)
  lft : ∀ e < m, StopAt g nodes (g.xv (g.lft e)) (g.yv (g.lft e))
  rgt : ∀ e < m, StopAt g nodes (g.xv (g.rgt e)) (g.yv (g.rgt e))

theorem Bnd.split {nodes' : Nodes} {e t a b la ra : ℕ} {lo ro : Option ℕ}
    (s : Split g.edges nodes nodes' e t a b la ra lo ro) (ht : isLeaf nodes t = true) (h : Bnd g m nodes) :
    Bnd g m nodes' :=
  ⟨fun e he t h1 h2 => (h.edge e he t h1 h2).split s ht, fun e he => (h.lft e he).split s ht,
    fun e he => (h.rgt e he).split s ht⟩

/-- There is room just to the right of an abscissa. -/
theorem exists_right (S : Finset ℚ) (u v : ℚ) (h : u < v) : ∃ t, u < t ∧ t < v ∧ ∀ x ∈ S, x ≤ u ∨ t < x := by
  induction S using Finset.induction_on with
  | empty => exact ⟨(u + v) / 2, by linarith, by linarith, by simp⟩
  | insert a S _ ih =>
    obtain ⟨t, h1, h2, h3⟩ := ih
    by_cases hu : a ≤ u
    · refine ⟨t, h1, h2, ?_⟩
      intro x hx
      rcases Finset.mem_insert.mp hx with rfl | hx
      · exact Or.inl hu
      · exact h3 x hx
    · push Not at hu
      refine ⟨(u + min a t) / 2, ?_, ?_, ?_⟩
      · have := lt_min hu h1; linarith
      · have := min_le_right a t; linarith
      · intro x hx
        have h4 := lt_min hu h1
        rcases Finset.mem_insert.mp hx with rfl | hx
        · right; have := min_le_left x t; linarith
        · rcases h3 x hx with h | h
          · exact Or.inl h
          · right; have := min_le_right a t; linarith

theorem exists_left (S : Finset ℚ) (u v : ℚ) (h : u < v) : ∃ t, u < t ∧ t < v ∧ ∀ x ∈ S, v ≤ x ∨ x < t := by
  obtain ⟨t, h1, h2, h3⟩ := exists_right (S.image fun x => -x) (-v) (-u) (by linarith)
  refine ⟨-t, by linarith, by linarith, ?_⟩
  intro x hx
  rcases h3 (-x) (Finset.mem_image_of_mem _ hx) with h | h
  · left; linarith
  · right; linarith

/-- A leaf whose right end is under its upper edge has a neighbour there. -/
theorem Dec.exists_upper (hg : g.Good) (d : Dec g m nodes) (hb : Bnd g m nodes) (hm : m ≤ g.n) {i : ℕ}
    (hi : isLeaf nodes i = true) (hp : (trapAt nodes i).right < g.k)
    (hy : g.yv (trapAt nodes i).right < g.f (trapAt nodes i).above (g.xv (trapAt nodes i).right)) :
    ∃ j, isLeaf nodes j = true ∧ (trapAt nodes i).above = (trapAt nodes j).above ∧
      g.xv (trapAt nodes i).right = g.xv (trapAt nodes j).left := by
  set p := (trapAt nodes i).right with hpp
  set A := (trapAt nodes i).above with hAA
  have hT := d.trap i hi
  have hA := (d.edg i hi).1
  rw [← hAA] at hA
  -- the upper edge goes on
  obtain ⟨v, hv1, hv2, hv3⟩ : ∃ v, g.xv p < v ∧ v ≤ g.xv (g.k + 3) ∧ g.Sp A v := by
    rcases hA with h | h
    · have hAn : A < g.n := by omega
      refine ⟨g.xv (g.rgt A), ?_, (hg.inx _ (hg.rgt A hAn)).2.le, fun _ => ⟨(hg.pos A hAn).le, le_rfl⟩⟩
      refine lt_of_le_of_ne (hT.sar hAn).2 ?_
      intro hq
      have := hg.yeq p hp _ (hg.rgt A hAn) hq
      rw [this, hg.onR A hAn, ← hq] at hy
      exact lt_irrefl _ hy
    · exact ⟨g.xv (g.k + 3), (hg.inx p hp).2, le_rfl, fun h' => absurd h' (by omega)⟩
  obtain ⟨t, t1, t2, t3⟩ := exists_right g.xs (g.xv p) v hv1
  have hts : ∀ j < g.k, g.xv j ≤ g.xv p ∨ t < g.xv j := fun j hj =>
    t3 _ (Finset.mem_image_of_mem _ (Finset.mem_range.mpr hj))
  have hgt : ∀ j < g.k, t ≠ g.xv j := by
    intro j hj h
    rcases hts j hj with q | q <;> linarith
  have hA2 : A < g.n + 2 := hT.a2
  have hSpA : g.Sp A t := hT.sar.mono hv3 t1.le t2.le
  have hbotA : g.f (g.n + 1) t < g.f A t := by
    rcases hA with h | h
    · exact hg.bot_edge (by omega) hSpA
    · rw [h]; exact hg.tb t
  obtain ⟨y, y1, y2, y3⟩ := exists_left ((Finset.range (g.n + 2)).image fun e => g.f e t) (g.f (g.n + 1) t) (g.f A t) hbotA
  have hys : ∀ e < g.n + 2, g.f A t ≤ g.f e t ∨ g.f e t < y := fun e he =>
    y3 _ (Finset.mem_image_of_mem (fun e => g.f e t) (Finset.mem_range.mpr he))
  have hpx := (hg.inx p hp)
  have hbox : InBox g t y := ⟨by linarith, by linarith, y1, by have := hg.le_top hA2 hSpA; linarith⟩
  obtain ⟨j, hw, hj, r1, r2, r3, r4⟩ := d.total_leaf (t := t) (y := y) ⟨hbox, hgt⟩ (by
    intro e he h
    rcases hys e (by omega) with q | q <;> linarith)
  have hJ := d.trap j hj
  -- the abscissa of its left end
  have hle : g.xv (trapAt nodes j).left ≤ g.xv p := by
    rcases hJ.vl with h | h | h
    · rcases hts _ h with q | q
      · exact q
      · linarith
    · rw [h]; linarith
    · rw [h] at r1; linarith
  have hab : A = (trapAt nodes j).above := by
    rcases hys _ hJ.a2 with q | q
    · rcases eq_or_lt_of_le q with q | q
      · by_contra hne
        refine hg.ne hA2 hJ.a2 hne (s := g.xv p) (t := min v (g.xv (trapAt nodes j).right)) hT.sar
          (hT.sar.mono hv3 (le_min hv1.le (by linarith)) (min_le_left _ _))
          (hJ.sal.mono hJ.sar hle (by linarith)) 
          (hJ.sal.mono hJ.sar (le_min (by linarith) (by linarith)) (min_le_right _ _)) t1 (lt_min t2 r2) q
      · exfalso
        rcases hA with h | h
        · refine d.not_stop (t := t) (y := g.f A t) ⟨?_, hgt⟩ (hb.edge A h t ?_ ?_) hj ⟨r1, r2, by linarith, q⟩
          · exact hJ.inBox hg ⟨r1, r2, by linarith, q⟩
          · have h1 := (hT.sal (by omega)).1
            have := hT.lt
            linarith
          · have := (hv3 (by omega)).2
            linarith
        · rw [h] at q
          have := hg.le_top hJ.a2 (hJ.sal.mono hJ.sar r1.le r2.le)
          linarith
    · linarith
  refine ⟨j, hj, hab, ?_⟩
  refine le_antisymm ?_ hle
  by_contra hlt
  push Not at hlt
  have heq : i = j := d.uniq_above hg hi hj hab (u := max (g.xv (trapAt nodes i).left) (g.xv (trapAt nodes j).left))
    (v := g.xv p) (max_lt hT.lt hlt) (le_max_left _ _) le_rfl (le_max_right _ _) (by linarith)
  subst heq
  linarith

/-- A leaf whose right end is over its lower edge has a neighbour there. -/
theorem Dec.exists_lower (hg : g.Good) (d : Dec g m nodes) (hb : Bnd g m nodes) (hm : m ≤ g.n) {i : ℕ}
    (hi : isLeaf nodes i = true) (hp : (trapAt nodes i).right < g.k)
    (hy : g.f (trapAt nodes i).below (g.xv (trapAt nodes i).right) < g.yv (trapAt nodes i).right) :
    ∃ j, isLeaf nodes j = true ∧ (trapAt nodes i).below = (trapAt nodes j).below ∧
      g.xv (trapAt nodes i).right = g.xv (trapAt nodes j).left := by
  set p := (trapAt nodes i).right with hpp
  set A := (trapAt nodes i).below with hAA
  have hT := d.trap i hi
  have hA := (d.edg i hi).2
  rw [← hAA] at hA
  obtain ⟨v, hv1, hv2, hv3⟩ : ∃ v, g.xv p < v ∧ v ≤ g.xv (g.k + 3) ∧ g.Sp A v := by
    rcases hA with h | h
    · have hAn : A < g.n := by omega
      refine ⟨g.xv (g.rgt A), ?_, (hg.inx _ (hg.rgt A hAn)).2.le, fun _ => ⟨(hg.pos A hAn).le, le_rfl⟩⟩
      refine lt_of_le_of_ne (hT.sbr hAn).2 ?_
      intro hq
      have := hg.yeq p hp _ (hg.rgt A hAn) hq
      rw [this, hg.onR A hAn, ← hq] at hy
      exact lt_irrefl _ hy
    · exact ⟨g.xv (g.k + 3), (hg.inx p hp).2, le_rfl, fun h' => absurd h' (by omega)⟩
  obtain ⟨t, t1, t2, t3⟩ := exists_right g.xs (g.xv p) v hv1
  have hts : ∀ j < g.k, g.xv j ≤ g.xv p ∨ t < g.xv j := fun j hj =>
    t3 _ (Finset.mem_image_of_mem _ (Finset.mem_range.mpr hj))
  have hgt : ∀ j < g.k, t ≠ g.xv j := by
    intro j hj h
    rcases hts j hj with q | q <;> linarith
  have hA2 : A < g.n + 2 := hT.b2
  have hSpA : g.Sp A t := hT.sbr.mono hv3 t1.le t2.le
  have htopA : g.f A t < g.f g.n t := by
    rcases hA with h | h
    · exact hg.top_edge (by omega) hSpA
    · rw [h]; exact hg.tb t
  obtain ⟨y, y1, y2, y3⟩ := exists_right ((Finset.range (g.n + 2)).image fun e => g.f e t) (g.f A t) (g.f g.n t) htopA
  have hys : ∀ e < g.n + 2, g.f e t ≤ g.f A t ∨ y < g.f e t := fun e he =>
    y3 _ (Finset.mem_image_of_mem (fun e => g.f e t) (Finset.mem_range.mpr he))
  have hpx := (hg.inx p hp)
  have hbox : InBox g t y := ⟨by linarith, by linarith, by have := hg.bot_le hA2 hSpA; linarith, y2⟩
  obtain ⟨j, hw, hj, r1, r2, r3, r4⟩ := d.total_leaf (t := t) (y := y) ⟨hbox, hgt⟩ (by
    intro e he h
    rcases hys e (by omega) with q | q <;> linarith)
  have hJ := d.trap j hj
  have hle : g.xv (trapAt nodes j).left ≤ g.xv p := by
    rcases hJ.vl with h | h | h
    · rcases hts _ h with q | q
      · exact q
      · linarith
    · rw [h]; linarith
    · rw [h] at r1; linarith
  have hab : A = (trapAt nodes j).below := by
    rcases hys _ hJ.b2 with q | q
    · rcases eq_or_lt_of_le q with q | q
      · by_contra hne
        refine hg.ne hA2 hJ.b2 hne (s := g.xv p) (t := min v (g.xv (trapAt nodes j).right)) hT.sbr
          (hT.sbr.mono hv3 (le_min hv1.le (by linarith)) (min_le_left _ _))
          (hJ.sbl.mono hJ.sbr hle (by linarith)) 
          (hJ.sbl.mono hJ.sbr (le_min (by linarith) (by linarith)) (min_le_right _ _)) t1 (lt_min t2 r2) q.symm
      · exfalso
        rcases hA with h | h
        · refine d.not_stop (t := t) (y := g.f A t) ⟨?_, hgt⟩ (hb.edge A h t ?_ ?_) hj ⟨r1, r2, q, by linarith⟩
          · exact hJ.inBox hg ⟨r1, r2, q, by linarith⟩
          · have h1 := (hT.sbl (by omega)).1
            have := hT.lt
            linarith
          · have := (hv3 (by omega)).2
            linarith
        · rw [h] at q
          have := hg.bot_le hJ.b2 (hJ.sbl.mono hJ.sbr r1.le r2.le)
          linarith
    · linarith
  refine ⟨j, hj, hab, ?_⟩
  refine le_antisymm ?_ hle
  by_contra hlt
  push Not at hlt
  have heq : i = j := d.uniq_below hg hi hj hab (u := max (g.xv (trapAt nodes i).left) (g.xv (trapAt nodes j).left))
    (v := g.xv p) (max_lt hT.lt hlt) (le_max_left _ _) le_rfl (le_max_right _ _) (by linarith)
  subst heq
  linarith

end Rene.Seidel
