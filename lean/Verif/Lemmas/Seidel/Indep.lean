import Verif.Lemmas.Seidel.Locate
import Verif.Lemmas.Seidel.General

/-! The trapezoid around a point does not depend on the arrangement of the edges. -/

namespace Rene.Seidel
open Rene Spec Sweep

/-- Trapezoids are parts of components as the edges around them tell. -/
def CompOk (edges : List Edge) (nodes : Nodes) : Prop := ∀ i, isLeaf nodes i = true → (trapAt nodes i).isComponent =
  ((edgeAt edges (trapAt nodes i).below).interiorToLeft && !(edgeAt edges (trapAt nodes i).above).interiorToLeft)

theorem compOk_mk {edges : List Edge} {X : Trap} {l r b a : ℕ} (h : X.bare = mkTrap edges l r b a) : X.isComponent =
    ((edgeAt edges X.below).interiorToLeft && !(edgeAt edges X.above).interiorToLeft) := by
  have h1 := congrArg Trap.isComponent h
  have h2 := congrArg Trap.below h
  have h3 := congrArg Trap.above h
  simp only [Trap.bare, mkTrap] at h1 h2 h3
  rw [h1, h2, h3]

theorem compOk_same {edges : List Edge} {X Y : Trap} (h1 : X.isComponent = Y.isComponent) (h2 : X.below = Y.below)
    (h3 : X.above = Y.above) (h : Y.isComponent =
      ((edgeAt edges Y.below).interiorToLeft && !(edgeAt edges Y.above).interiorToLeft)) : X.isComponent =
    ((edgeAt edges X.below).interiorToLeft && !(edgeAt edges X.above).interiorToLeft) := by
  rw [h1, h2, h3]; exact h

theorem CompOk.split {edges : List Edge} {nodes nodes' : Nodes} {e t a b la ra : ℕ} {lo ro : Option ℕ}
    (h : CompOk edges nodes) (s : Split edges nodes nodes' e t a b la ra lo ro) : CompOk edges nodes' := by
  intro i hi
  by_cases ha : i = a
  · subst ha
    rcases s.above with ⟨_, q⟩ | ⟨_, _, l, _, q⟩
    · exact compOk_mk q
    · exact compOk_same (by simpa [Trap.bare] using congrArg Trap.isComponent q)
        (by simpa [Trap.bare] using congrArg Trap.below q) (by simpa [Trap.bare] using congrArg Trap.above q) (h i l)
  by_cases hb : i = b
  · subst hb
    rcases s.below with ⟨_, q⟩ | ⟨_, _, l, _, q⟩
    · exact compOk_mk q
    · exact compOk_same (by simpa [Trap.bare] using congrArg Trap.isComponent q)
        (by simpa [Trap.bare] using congrArg Trap.below q) (by simpa [Trap.bare] using congrArg Trap.above q) (h i l)
  rcases (s.leaf i).mp hi with ⟨q1, q2⟩ | q | q | q | q
  · have q := s.keep i (isLeaf_lt q1) q2 ha hb
    exact compOk_same (by simpa [Trap.bare] using congrArg Trap.isComponent q)
        (by simpa [Trap.bare] using congrArg Trap.below q) (by simpa [Trap.bare] using congrArg Trap.above q) (h i q1)
  · exact absurd q ha
  · exact absurd q hb
  · exact compOk_mk (s.left i q).2.2.2
  · exact compOk_mk (s.right i q).2.2.2

theorem fromBox_comp {box : Box} {edges : List Edge} {endpoints : List Point} {T : Trapezoidation}
    (h : fromBox box edges endpoints = .ok T) : CompOk T.edges T.nodes := by
  have k := fromBox_induct h (P := CompOk (edges ++ [⟨true, endpoints.length, endpoints.length + 1⟩,
      ⟨false, endpoints.length + 2, endpoints.length + 3⟩])) (by
    intro i hi
    have : i = 0 := by have := isLeaf_lt hi; simpa using this
    subst this
    exact compOk_mk (X := mkTrap _ _ _ _ _) rfl) (fun e he nodes nodes' t a b la ra lo ro ht hP s => hP.split s)
  rw [k.1]; exact k.2.2

section
variable {box : Box} {es es' : List Edge} {endpoints : List Point} {q : Point} {ε : ℚ} {g g' : Geo} {N N' : Nodes}

/-- A point off the edges is not at the abscissa of an end point. -/
theorem Sees.free (s : Sees box es endpoints q ε g) (h : EdgesOk box es endpoints)
    (hq : ∀ e < es.length, q ∉ seg (Seidel.pt endpoints (edgeAt es e).left) (Seidel.pt endpoints (edgeAt es e).right)) :
    Free g ((frameCtx es endpoints ε).X q) := by
  intro i hi w
  have hi' : i < endpoints.length := by rw [← s.k]; exact hi
  have e : q = Seidel.pt endpoints i := le_antisymm
    (not_lt.mp fun z => by have := (s.gt i hi').mp z; linarith)
    (not_lt.mp fun z => by have := (s.lt i hi').mp z; linarith)
  obtain ⟨j, hj, z⟩ := h.own i hi'
  refine hq j hj ?_
  rw [e]
  rcases z with z | z <;> rw [z]
  · exact start_mem_seg _ _
  · exact end_mem_seg _ _

/-- The same line in another arrangement. -/
theorem Sees.transfer (s : Sees box es endpoints q ε g) (s' : Sees box es' endpoints q ε g') (hp : es.Perm es') {e : ℕ}
    (he : e < es.length) (h : EdgesOk box es endpoints) (h' : EdgesOk box es' endpoints) :
    ∃ e' < es'.length, edgeAt es' e' = edgeAt es e ∧ (∀ t, g'.f e' t = g.f e t) ∧ g'.xv (g'.lft e') = g.xv (g.lft e) ∧
      g'.xv (g'.rgt e') = g.xv (g.rgt e) := by
  have hm : edgeAt es e ∈ es' := hp.mem_iff.mp (by
    unfold edgeAt; rw [List.getD_eq_getElem _ _ he]; exact List.getElem_mem he)
  obtain ⟨i, hi, w⟩ := List.mem_iff_getElem.mp hm
  have w' : edgeAt es' i = edgeAt es e := by
    rw [← w]; unfold edgeAt; rw [List.getD_eq_getElem _ _ hi]
  refine ⟨i, hi, w', ?_, ?_, ?_⟩
  · intro t
    rw [s.f he, s'.f hi]
    unfold Ctx.f frameCtx
    simp only [w']
  · rw [s.lft he, s'.lft hi, w', s.xv (h.lft e he), s'.xv (by rw [← w']; exact h'.lft i hi)]
    rfl
  · rw [s.rgt he, s'.rgt hi, w', s.xv (h.rgt e he), s'.xv (by rw [← w']; exact h'.rgt i hi)]
    rfl

/-- Two edges at the same place off the end points are the same. -/
theorem Sees.same (s : Sees box es endpoints q ε g) {i j : ℕ} (hi : i < es.length) (hj : j < es.length) {t : ℚ}
    (hf : Free g t) (si : g.Sp i t) (sj : g.Sp j t) (h : g.f i t = g.f j t) : i = j := by
  by_contra hne
  rcases s.good.nc i (by rw [s.n]; exact hi) j (by rw [s.n]; exact hj) hne t si sj h with w | w
  · exact hf _ (s.good.lft i (by rw [s.n]; exact hi)) w
  · exact hf _ (s.good.rgt i (by rw [s.n]; exact hi)) w

/-- The edge under a point in one arrangement is not over that in another one. -/
theorem Sees.below_le (s : Sees box es endpoints q ε g) (s' : Sees box es' endpoints q ε g') (hp : es.Perm es')
    (h : EdgesOk box es endpoints) (h' : EdgesOk box es' endpoints) (d : Dec g g.n N) (d' : Dec g' g'.n N')
    (hs' : Stops g' g'.n N') {j j' : ℕ} (hj : isLeaf N j = true) (hj' : isLeaf N' j' = true)
    (hr : Reg g (trapAt N j) ((frameCtx es endpoints ε).X q) q.y)
    (hr' : Reg g' (trapAt N' j') ((frameCtx es endpoints ε).X q) q.y)
    (hb : (trapAt N j).below < es.length) :
    ∃ e' < es'.length, edgeAt es' e' = edgeAt es (trapAt N j).below ∧
      g'.Sp e' ((frameCtx es endpoints ε).X q) ∧
      g'.f e' ((frameCtx es endpoints ε).X q) = g.f (trapAt N j).below ((frameCtx es endpoints ε).X q) ∧
      g'.f e' ((frameCtx es endpoints ε).X q) ≤ g'.f (trapAt N' j').below ((frameCtx es endpoints ε).X q) := by
  obtain ⟨e', he', w, wf, wl, wr⟩ := s.transfer s' hp hb h h'
  have hT := d.trap j hj
  have hsp : g.Sp (trapAt N j).below ((frameCtx es endpoints ε).X q) := hT.sbl.mono hT.sbr hr.1.le hr.2.1.le
  have hsp' := hsp (by rw [s.n]; exact hb)
  have hS : g'.Sp e' ((frameCtx es endpoints ε).X q) := fun _ => by rw [wl, wr]; exact hsp'
  refine ⟨e', he', w, hS, wf _, ?_⟩
  by_contra hc
  push Not at hc
  have hn : e' < g'.n := by rw [s'.n]; exact he'
  obtain ⟨z1, z2⟩ := hS hn
  refine hs'.notReg s'.good d' hn hn z1 z2 hj' ⟨hr'.1, hr'.2.1, hc, ?_⟩
  have := hr.2.2.1
  have := hr'.2.2.2
  rw [wf]; linarith

theorem Sees.above_ge (s : Sees box es endpoints q ε g) (s' : Sees box es' endpoints q ε g') (hp : es.Perm es')
    (h : EdgesOk box es endpoints) (h' : EdgesOk box es' endpoints) (d : Dec g g.n N) (d' : Dec g' g'.n N')
    (hs' : Stops g' g'.n N') {j j' : ℕ} (hj : isLeaf N j = true) (hj' : isLeaf N' j' = true)
    (hr : Reg g (trapAt N j) ((frameCtx es endpoints ε).X q) q.y)
    (hr' : Reg g' (trapAt N' j') ((frameCtx es endpoints ε).X q) q.y)
    (hb : (trapAt N j).above < es.length) :
    ∃ e' < es'.length, edgeAt es' e' = edgeAt es (trapAt N j).above ∧
      g'.Sp e' ((frameCtx es endpoints ε).X q) ∧
      g'.f e' ((frameCtx es endpoints ε).X q) = g.f (trapAt N j).above ((frameCtx es endpoints ε).X q) ∧
      g'.f (trapAt N' j').above ((frameCtx es endpoints ε).X q) ≤ g'.f e' ((frameCtx es endpoints ε).X q) := by
  obtain ⟨e', he', w, wf, wl, wr⟩ := s.transfer s' hp hb h h'
  have hT := d.trap j hj
  have hsp : g.Sp (trapAt N j).above ((frameCtx es endpoints ε).X q) := hT.sal.mono hT.sar hr.1.le hr.2.1.le
  have hsp' := hsp (by rw [s.n]; exact hb)
  have hS : g'.Sp e' ((frameCtx es endpoints ε).X q) := fun _ => by rw [wl, wr]; exact hsp'
  refine ⟨e', he', w, hS, wf _, ?_⟩
  by_contra hc
  push Not at hc
  have hn : e' < g'.n := by rw [s'.n]; exact he'
  obtain ⟨z1, z2⟩ := hS hn
  refine hs'.notReg s'.good d' hn hn z1 z2 hj' ⟨hr'.1, hr'.2.1, ?_, hc⟩
  have := hr.2.2.2
  have := hr'.2.2.1
  rw [wf]; linarith

/-- The edge under a point is the same in all arrangements. -/
theorem Sees.below_eq (s : Sees box es endpoints q ε g) (s' : Sees box es' endpoints q ε g') (hp : es.Perm es')
    (h : EdgesOk box es endpoints) (h' : EdgesOk box es' endpoints) (d : Dec g g.n N) (d' : Dec g' g'.n N')
    (hs : Stops g g.n N) (hs' : Stops g' g'.n N') {j j' : ℕ} (hj : isLeaf N j = true) (hj' : isLeaf N' j' = true)
    (hr : Reg g (trapAt N j) ((frameCtx es endpoints ε).X q) q.y)
    (hr' : Reg g' (trapAt N' j') ((frameCtx es endpoints ε).X q) q.y)
    (hq : ∀ e < es.length, q ∉ seg (Seidel.pt endpoints (edgeAt es e).left) (Seidel.pt endpoints (edgeAt es e).right)) :
    edgeAt g.edges (trapAt N j).below = edgeAt g'.edges (trapAt N' j').below := by
  have hX : (frameCtx es' endpoints ε).X q = (frameCtx es endpoints ε).X q := rfl
  have hlen := hp.length_eq
  have e1 := (d.edg j hj).2
  have e2 := (d'.edg j' hj').2
  rw [s.n] at e1
  rw [s'.n] at e2
  rcases e1 with e1 | e1 <;> rcases e2 with e2 | e2
  · obtain ⟨i, i1, i2, i3, i4, i5⟩ := s.below_le s' hp h h' d d' hs' hj hj' hr hr' e1
    obtain ⟨k, k1, k2, k3, k4, k5⟩ := s'.below_le s hp.symm h' h d' d hs hj' hj hr' hr e2
    rw [hX] at k3 k4 k5
    have hf : g.f k ((frameCtx es endpoints ε).X q) = g.f (trapAt N j).below ((frameCtx es endpoints ε).X q) := by linarith
    have hT := d.trap j hj
    have := s.same k1 e1 (s.free h hq) k3 (hT.sbl.mono hT.sbr hr.1.le hr.2.1.le) hf
    rw [s.hedges, s'.hedges, edgeAt_append e1, edgeAt_append e2, ← k2, this]
  · obtain ⟨i, i1, i2, i3, i4, i5⟩ := s.below_le s' hp h h' d d' hs' hj hj' hr hr' e1
    have hn : i < g'.n := by rw [s'.n]; exact i1
    have := s'.good.bot_edge hn i3
    rw [e2, ← s'.n] at i5; linarith
  · obtain ⟨k, k1, k2, k3, k4, k5⟩ := s'.below_le s hp.symm h' h d' d hs hj' hj hr' hr e2
    rw [hX] at k3 k4 k5
    have hn : k < g.n := by rw [s.n]; exact k1
    have := s.good.bot_edge hn k3
    rw [e1, ← s.n] at k5; linarith
  · rw [s.hedges, s'.hedges, e1, e2]
    unfold edgeAt
    rw [List.getD_append_right _ _ _ _ (by omega), List.getD_append_right _ _ _ _ (by omega)]
    simp

theorem Sees.above_eq (s : Sees box es endpoints q ε g) (s' : Sees box es' endpoints q ε g') (hp : es.Perm es')
    (h : EdgesOk box es endpoints) (h' : EdgesOk box es' endpoints) (d : Dec g g.n N) (d' : Dec g' g'.n N')
    (hs : Stops g g.n N) (hs' : Stops g' g'.n N') {j j' : ℕ} (hj : isLeaf N j = true) (hj' : isLeaf N' j' = true)
    (hr : Reg g (trapAt N j) ((frameCtx es endpoints ε).X q) q.y)
    (hr' : Reg g' (trapAt N' j') ((frameCtx es endpoints ε).X q) q.y)
    (hq : ∀ e < es.length, q ∉ seg (Seidel.pt endpoints (edgeAt es e).left) (Seidel.pt endpoints (edgeAt es e).right)) :
    edgeAt g.edges (trapAt N j).above = edgeAt g'.edges (trapAt N' j').above := by
  have hX : (frameCtx es' endpoints ε).X q = (frameCtx es endpoints ε).X q := rfl
  have hlen := hp.length_eq
  have e1 := (d.edg j hj).1
  have e2 := (d'.edg j' hj').1
  rw [s.n] at e1
  rw [s'.n] at e2
  rcases e1 with e1 | e1 <;> rcases e2 with e2 | e2
  · obtain ⟨i, i1, i2, i3, i4, i5⟩ := s.above_ge s' hp h h' d d' hs' hj hj' hr hr' e1
    obtain ⟨k, k1, k2, k3, k4, k5⟩ := s'.above_ge s hp.symm h' h d' d hs hj' hj hr' hr e2
    rw [hX] at k3 k4 k5
    have hf : g.f k ((frameCtx es endpoints ε).X q) = g.f (trapAt N j).above ((frameCtx es endpoints ε).X q) := by linarith
    have hT := d.trap j hj
    have := s.same k1 e1 (s.free h hq) k3 (hT.sal.mono hT.sar hr.1.le hr.2.1.le) hf
    rw [s.hedges, s'.hedges, edgeAt_append e1, edgeAt_append e2, ← k2, this]
  · obtain ⟨i, i1, i2, i3, i4, i5⟩ := s.above_ge s' hp h h' d d' hs' hj hj' hr hr' e1
    have hn : i < g'.n := by rw [s'.n]; exact i1
    have := s'.good.top_edge hn i3
    rw [e2, ← s'.n] at i5; linarith
  · obtain ⟨k, k1, k2, k3, k4, k5⟩ := s'.above_ge s hp.symm h' h d' d hs hj' hj hr' hr e2
    rw [hX] at k3 k4 k5
    have hn : k < g.n := by rw [s.n]; exact k1
    have := s.good.top_edge hn k3
    rw [e1, ← s.n] at k5; linarith
  · rw [s.hedges, s'.hedges, e1, e2]
    unfold edgeAt
    rw [List.getD_append_right _ _ _ _ (by omega), List.getD_append_right _ _ _ _ (by omega)]
    simp

end

/-- Locations do not depend on the arrangement of the edges. -/
theorem fromBox_indep {box : Box} {es es' : List Edge} {endpoints : List Point} (h : EdgesOk box es endpoints)
    (h' : EdgesOk box es' endpoints) (hp : es.Perm es') {T T' : Trapezoidation} (hT : fromBox box es endpoints = .ok T)
    (hT' : fromBox box es' endpoints = .ok T') (q : Point) : T.locate q = T'.locate q := by
  obtain ⟨ε, hε⟩ := exists_sees box endpoints q
  obtain ⟨g, s⟩ := hε es h
  obtain ⟨g', s'⟩ := hε es' h'
  obtain ⟨N, hN, S, hs⟩ := fromBox_ok s.good s.hedges s.hendpoints s.n s.k h.ne h.nonempty
  obtain ⟨N', hN', S', hs'⟩ := fromBox_ok s'.good s'.hedges s'.hendpoints s'.n s'.k h'.ne h'.nonempty
  have c := fromBox_comp hN
  have c' := fromBox_comp hN'
  rw [hT] at hN
  rw [hT'] at hN'
  injection hN with hN
  injection hN' with hN'
  subst hN hN'
  -- both searches end
  have tot : ∀ (g : Geo) (N : Nodes), Ranked N → ∃ r, (⟨g.edges, g.endpoints, N⟩ : Trapezoidation).locate q = some r := by
    intro g N hr
    obtain ⟨h0, rk, hrk⟩ := hr
    have := Ranked.depthBound_lt h0 hrk 0
    exact Option.isSome_iff_exists.mp (locateFrom_terminates g.edges g.endpoints q hrk (N.length + 1) 0 h0 (by omega))
  obtain ⟨r, hr⟩ := tot g N S.dec.rk
  obtain ⟨r', hr'⟩ := tot g' N' S'.dec.rk
  rw [hr, hr']
  have hmem : (∃ e < es.length, q ∈ seg (pt endpoints (edgeAt es e).left) (pt endpoints (edgeAt es e).right)) ↔
      ∃ e < es'.length, q ∈ seg (pt endpoints (edgeAt es' e).left) (pt endpoints (edgeAt es' e).right) := by
    constructor
    · rintro ⟨e, he, m⟩
      obtain ⟨e', he', w, -⟩ := s.transfer s' hp he h h'
      exact ⟨e', he', by rw [w]; exact m⟩
    · rintro ⟨e, he, m⟩
      obtain ⟨e', he', w, -⟩ := s'.transfer s hp.symm he h' h
      exact ⟨e', he', by rw [w]; exact m⟩
  rcases s.locate h S.dec hs hr with ⟨w1, w2⟩ | ⟨w1, j, w2, w3, w4⟩ <;>
    rcases s'.locate h' S'.dec hs' hr' with ⟨z1, z2⟩ | ⟨z1, j', z2, z3, z4⟩
  · rw [w1, z1]
  · obtain ⟨e, he, m⟩ := hmem.mp w2
    exact absurd m (z1 e he)
  · obtain ⟨e, he, m⟩ := hmem.mpr z2
    exact absurd m (w1 e he)
  · rw [w4, z4, c j w2, c' j' z2, s.below_eq s' hp h h' S.dec S'.dec hs hs' w2 z2 w3 z3 w1,
      s.above_eq s' hp h h' S.dec S'.dec hs hs' w2 z2 w3 z3 w1]

end Rene.Seidel
