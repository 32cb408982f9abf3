import Verif.Lemmas.Seidel.Mid

namespace Rene.Seidel
open Rene Spec

variable {g : Geo} {nodes nodes' : Nodes} {e t a b pa pb la ra m : ℕ} {lo ro poU poL : Option ℕ}

/-- Adding the edge to a trapezoid which is not the first one. -/
theorem Mid.core (hg : g.Good) (he : e < g.n) (hem : e < m) (M : Mid g m nodes e t pa pb) {rest : List ℕ}
    (hc : Chn g nodes e (t :: rest)) {N : Nodes} {ra : ℕ}
    (s : Split g.edges nodes N e t a b (trapAt nodes t).left ra none ro)
    (c : Cut g (trapAt nodes t) e (trapAt nodes t).left ra none ro)
    (qa : a = if (trapAt nodes pa).above = (trapAt nodes t).above then pa else nodes.length)
    (qb : b = if (trapAt nodes pb).below = (trapAt nodes t).below then pb else b)
    (qb' : (trapAt nodes pb).below ≠ (trapAt nodes t).below → nodes.length ≤ b)
    (lu : LinkStep (Lf nodes) (Lf N) (UR nodes) (UL nodes) (UR N) (UL N) t a b none ro (some pb))
    (ll : LinkStep (Lf nodes) (Lf N) (LR nodes) (LL nodes) (LR N) (LL N) t b a none ro (some pa)) :
    St g m N ∧ (∀ x, Free g x → g.xv (g.lft e) < x → x < g.xv ra → StopAt g N x (g.f e x)) ∧
    (∀ i ∈ rest, isLeaf N i = true ∧ (trapAt N i).bare = (trapAt nodes i).bare) ∧
    (trapAt N a).below = e ∧ (trapAt N b).above = e ∧ (trapAt N a).right = ra ∧ (trapAt N b).right = ra ∧
    (trapAt N a).above = (trapAt nodes t).above ∧ (trapAt N b).below = (trapAt nodes t).below ∧
    (∀ i, isLeaf N i = true → (trapAt N i).above = e → XR g N i ≤ g.xv ra) ∧
    (∀ i, isLeaf N i = true → (trapAt N i).below = e → XR g N i ≤ g.xv ra) := by
  have ht := hc.leaf t (by simp)
  have d := M.st.dec
  have hT := d.trap t ht
  have hal := isLeaf_lt M.ha
  have hbl := isLeaf_lt M.hb
  have xa := M.xa
  have xb := M.xb
  obtain ⟨n1, n2⟩ := c.ne_above hg hT.lt
  obtain ⟨b1, b2, b3, b4, b5⟩ := c.bounds hg hT.lt
  have hA : a < nodes.length → ExtA g nodes e t a none := by
    intro h
    split_ifs at qa
    · rw [qa]; exact ⟨rfl, M.ea, xa⟩
    · omega
  have hB : b < nodes.length → ExtB g nodes e t b none := by
    intro h
    by_cases q : (trapAt nodes pb).below = (trapAt nodes t).below
    · rw [if_pos q] at qb; rw [qb]; exact ⟨rfl, M.eb, xb⟩
    · have := qb' q; omega
  have hpat : pa ≠ t := by
    rintro rfl; exact n2 M.ea.symm
  have hpbt : pb ≠ t := by
    rintro rfl; exact n1 M.eb.symm
  obtain ⟨a1, a2, a3, a4⟩ := s.fieldsA hA
  obtain ⟨c1, c2, c3, c4⟩ := s.fieldsB hB
  have wt := M.st.wall t ht M.lk
  have res := M.st.split hg hem s ht c hA hB M.oldU M.oldL (poU := some pb) (poL := some pa) ?_ (by simp) ?_ (by simp)
    lu ll ?_ ?_
  · refine ⟨res.1, ?_, ?_, a2, c2, a1, c1, a3, c3, ?_, ?_⟩
    · intro x hx h1 h2
      rcases lt_trichotomy x (g.xv (trapAt nodes t).left) with q | q | q
      · exact (M.stp x hx h1 q).split s ht
      · exact absurd q (hx _ M.lk)
      · exact res.2 x hx q h2
    · intro i hi
      have hil := hc.leaf i (List.mem_cons_of_mem _ hi)
      have hit : i ≠ t := by
        rintro rfl
        have := hc.right d i hi
        linarith [hT.lt]
      have hne := hc.ne hg he d i (List.mem_cons_of_mem _ hi)
      have hlt := isLeaf_lt hil
      have hia : i ≠ a := by
        rintro rfl
        exact hne.2 (hA hlt).below
      have hib : i ≠ b := by
        rintro rfl
        exact hne.1 (hB hlt).above
      exact ⟨(s.leaf i).mpr (Or.inl ⟨hil, hit⟩), s.keep i hlt hit hia hib⟩
    · intro i hi hie
      rcases s.leaf_cases hi with k | k | k | k | ⟨k1, k2, k3, k4, k5⟩
      · rw [k, a3] at hie; exact absurd hie.symm n1
      · rw [k]; unfold XR; rw [c1]
      · cases k
      · rw [(s.fieldsR k).2.2.2] at hie; exact absurd hie.symm n1
      · have f := bare_eq_fields k5
        have := M.oldU i k1 (by rw [← f.2.2.2]; exact hie)
        unfold XR XL at *; rw [f.2.1]; linarith
    · intro i hi hie
      rcases s.leaf_cases hi with k | k | k | k | ⟨k1, k2, k3, k4, k5⟩
      · rw [k]; unfold XR; rw [a1]
      · rw [k, c3] at hie; exact absurd hie.symm n2
      · cases k
      · rw [(s.fieldsR k).2.2.1] at hie; exact absurd hie.symm n2
      · have f := bare_eq_fields k5
        have := M.oldL i k1 (by rw [← f.2.2.1]; exact hie)
        unfold XR XL at *; rw [f.2.1]; linarith
  · intro hnb p hp
    cases hp
    refine ⟨M.hb, hpbt, ?_, M.eb, xb, rfl⟩
    intro q
    have := (hA (q ▸ hbl)).below
    rw [← q] at this
    -- `pb` would be `pa`
    split_ifs at qa
    · exact M.ab (qa.symm.trans q.symm)
    · omega
  · intro hnb p hp
    cases hp
    refine ⟨M.ha, hpat, ?_, M.ea, xa, rfl⟩
    intro q
    by_cases r : (trapAt nodes pb).below = (trapAt nodes t).below
    · rw [if_pos r] at qb
      exact M.ab (q.trans qb)
    · have := qb' r; omega
  · intro h1 h2
    refine ⟨?_, wt.2⟩
    rcases M.rel with r | r
    · rw [if_pos r.2] at qa; omega
    · exact r.1.le
  · intro h1 h2
    refine ⟨wt.1, ?_⟩
    rcases M.rel with r | r
    · exact r.1.le
    · rw [if_pos r.2] at qb; omega

theorem Mid.middle (hg : g.Good) (he : e < g.n) (hem : e < m) {t' : ℕ} {rest : List ℕ}
    (M : Mid g m nodes e t pa pb) (hc : Chn g nodes e (t :: t' :: rest)) :
    ∃ N a b, addEdgeToMiddle g.edges nodes e t pa pb = .ok (N, a, b) ∧ Mid g m N e t' a b ∧ Chn g N e (t' :: rest) ∧
      ∀ x y, StopAt g nodes x y → StopAt g N x y := by
  have ht := hc.leaf t (by simp)
  have d := M.st.dec
  have hT := d.trap t ht
  obtain ⟨ne1, ne2⟩ := hc.ne hg he d t (by simp)
  have ml := midLinks d M.st.cu M.st.cl ht M.ha M.hb M.ab M.ea M.eb ne1.symm ne2.symm M.xa M.xb
  have hpat : pa ≠ t := by
    rintro rfl; exact ne2 M.ea
  have hpbt : pb ≠ t := by
    rintro rfl; exact ne1 M.eb
  have htot := addEdgeToMiddle_total (edges := g.edges) (e := e) ht ml.ok hpat hpbt
  have hs := middleP_split (edges := g.edges) (e := e) (ur := (trapAt nodes t).upperRight) (lr := (trapAt nodes t).lowerRight)
    (ul := (trapAt nodes t).upperLeft) (ll := (trapAt nodes t).lowerLeft) ht M.ha M.hb hpat hpbt M.ab
  rcases hN : middleP g.edges nodes e t pa pb (trapAt nodes t).upperRight
      (trapAt nodes t).lowerRight (trapAt nodes t).upperLeft (trapAt nodes t).lowerLeft with ⟨N, a, b⟩
  rw [hN] at htot hs
  simp only at hs
  obtain ⟨lu, ll⟩ := middle_links ht M.ha M.hb hpat hpbt ml hN
  rcases hM : extAB g.edges nodes e t pa pb (trapAt nodes t).right (trapAt nodes t).upperLeft (trapAt nodes t).lowerLeft
    with ⟨X, a', b'⟩
  have hab : a = a' ∧ b = b' := by
    unfold middleP at hN
    simp only [hM, Prod.mk.injEq] at hN
    exact ⟨hN.2.1.symm, hN.2.2.symm⟩
  obtain ⟨rfl, rfl⟩ := hab
  obtain ⟨n', hn', ea, eb, -⟩ := extAB_links ht M.ha M.hb M.ab ml.ok hM
  have hc' := hc
  obtain ⟨⟨h1, h2, h3, h4, h5, h6, h7⟩, h8⟩ := hc
  have c : Cut g (trapAt nodes t) e (trapAt nodes t).left (trapAt nodes t).right none none :=
    { he := he, vla := hT.vl, vra := hT.vr, hl := h3, hr := by linarith [hT.lt],
      lo0 := fun _ => ⟨M.ll.le, rfl⟩, lo1 := (by simp), ro0 := fun _ => ⟨h2.le, rfl⟩, ro1 := (by simp),
      mid := fun w w1 w2 => h4 w w1 w2 (by have := M.ll; unfold XL at this; linarith) (by linarith) }
  obtain ⟨S, stp, kp, f1, f2, f3, f4, f5, f6, o1, o2⟩ := M.core hg he hem hc' hs c ea
    (by split_ifs at eb ⊢ <;> first | exact eb | rfl) (fun q => by rw [if_neg q] at eb; omega) lu ll
  obtain ⟨k1, k2⟩ := kp t' (by simp)
  obtain ⟨v1, v2, v3, v4⟩ := bare_eq_fields k2
  refine ⟨N, a, b, htot, ?_, h8.congr fun i hi => kp i hi, fun x y q => q.split hs ht⟩
  refine { st := S, ha := (hs.leaf a).mpr (by simp), hb := (hs.leaf b).mpr (by simp), ab := hs.ab, ea := f1, eb := f2,
           xa := ?_, xb := ?_, oldU := ?_, oldL := ?_, stp := ?_, lk := ?_, ll := ?_, rel := ?_ }
  · unfold XR XL; rw [f3, v1]; exact h5
  · unfold XR XL; rw [f4, v1]; exact h5
  · intro i hi hie; have := o1 i hi hie; unfold XL; rw [v1, ← h5]; exact this
  · intro i hi hie; have := o2 i hi hie; unfold XL; rw [v1, ← h5]; exact this
  · intro x hx x1 x2
    unfold XL at x2; rw [v1, ← h5] at x2
    exact stp x hx x1 x2
  · rw [v1]; exact h6
  · unfold XL; rw [v1, ← h5]; exact h3
  · unfold Rel at *; rw [v1, v3, v4, f5, f6]; exact h7

theorem Mid.last (hg : g.Good) (he : e < g.n) (hem : e < m)
    (M : Mid g m nodes e t pa pb) (hc : Chn g nodes e [t]) :
    ∃ N, addEdgeToLast g.edges g.endpoints nodes e t pa pb = .ok N ∧ St g m N ∧
      (∀ x, Free g x → g.xv (g.lft e) < x → x < g.xv (g.rgt e) → StopAt g N x (g.f e x)) ∧
      ∀ x y, StopAt g nodes x y → StopAt g N x y := by
  have ht := hc.leaf t (by simp)
  have d := M.st.dec
  have hT := d.trap t ht
  obtain ⟨ne1, ne2⟩ := hc.ne hg he d t (by simp)
  have ml := midLinks d M.st.cu M.st.cl ht M.ha M.hb M.ab M.ea M.eb ne1.symm ne2.symm M.xa M.xb
  have hpat : pa ≠ t := by
    rintro rfl; exact ne2 M.ea
  have hpbt : pb ≠ t := by
    rintro rfl; exact ne1 M.eb
  have htot := addEdgeToLast_total (edges := g.edges) (endpoints := g.endpoints) (e := e) ht ml.ok hpat hpbt
  obtain ⟨ro, hro0, hro, hs⟩ := lastP_split (edges := g.edges) (endpoints := g.endpoints) (e := e)
    (ur := (trapAt nodes t).upperRight) (lr := (trapAt nodes t).lowerRight)
    (ul := (trapAt nodes t).upperLeft) (ll := (trapAt nodes t).lowerLeft) ht M.ha M.hb hpat hpbt M.ab
  rcases hN : lastP g.edges g.endpoints nodes e t pa pb (trapAt nodes t).upperRight
      (trapAt nodes t).lowerRight (trapAt nodes t).upperLeft (trapAt nodes t).lowerLeft with ⟨N, a, b⟩
  rw [hN] at htot hs
  simp only at hs htot
  obtain ⟨lu, ll⟩ := last_links ht M.ha M.hb hpat hpbt ml hro hN
  rcases hM : extAB g.edges nodes e t pa pb (edgeAt g.edges e).right (trapAt nodes t).upperLeft (trapAt nodes t).lowerLeft
    with ⟨X, a', b'⟩
  have hab : a = a' ∧ b = b' := by
    unfold lastP at hN
    simp only [hM, Prod.mk.injEq] at hN
    exact ⟨hN.2.1.symm, hN.2.2.symm⟩
  obtain ⟨rfl, rfl⟩ := hab
  obtain ⟨n', hn', ea, eb, -⟩ := extAB_links ht M.ha M.hb M.ab ml.ok hM
  have hc' := hc
  obtain ⟨h1, h2, h3, h4, h5⟩ := hc
  have vr : g.V (g.rgt e) := Or.inl (hg.rgt e he)
  have heq := hg.eq (g.rgt e) (trapAt nodes t).right vr hT.vr
  have c : Cut g (trapAt nodes t) e (trapAt nodes t).left (g.rgt e) none ro :=
    { he := he, vla := hT.vl, vra := vr, hl := h4, hr := h3,
      lo0 := fun _ => ⟨M.ll.le, rfl⟩, lo1 := (by simp),
      ro0 := fun q => by
        have := heq.mp (hro0.mp q)
        exact ⟨this.symm.le, this⟩
      ro1 := fun l q => by
        refine ⟨lt_of_le_of_ne h2 ?_, rfl⟩
        intro w
        have := hro0.mpr (heq.mpr w)
        rw [q] at this; cases this
      mid := fun w w1 w2 => h5 w w1 (by linarith) (by have := M.ll; unfold XL at this; linarith) w2 }
  obtain ⟨S, stp, kp, f1, f2, f3, f4, f5, f6, o1, o2⟩ := M.core hg he hem hc' hs c ea
    (by split_ifs at eb ⊢ <;> first | exact eb | rfl) (fun q => by rw [if_neg q] at eb; omega) lu ll
  exact ⟨N, htot, S, stp, fun x y q => q.split hs ht⟩

theorem Mid.rest (hg : g.Good) (he : e < g.n) (hem : e < m) : ∀ {ts : List ℕ} {nodes : Nodes} {t pa pb : ℕ}
    (_ : Mid g m nodes e t pa pb) (_ : Chn g nodes e (t :: ts)),
    ∃ N, addEdgeRest g.edges g.endpoints e nodes pa pb (t :: ts) = .ok N ∧ St g m N ∧
      (∀ x, Free g x → g.xv (g.lft e) < x → x < g.xv (g.rgt e) → StopAt g N x (g.f e x)) ∧
      ∀ x y, StopAt g nodes x y → StopAt g N x y
  | [], nodes, t, pa, pb, M, hc => M.last hg he hem hc
  | t' :: ts, nodes, t, pa, pb, M, hc => by
    obtain ⟨N, a, b, h1, h2, h3, h4⟩ := M.middle hg he hem hc
    obtain ⟨N', h5, h6, h7, h8⟩ := Mid.rest hg he hem h2 h3
    refine ⟨N', ?_, h6, h7, fun x y q => h8 x y (h4 x y q)⟩
    simp only [addEdgeRest, h1]
    exact h5

end Rene.Seidel
