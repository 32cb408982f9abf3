import Verif.Lemmas.BO.Base

/-! What one iteration of the validity sweep does to the map of collinear segments, in any state. -/

namespace Rene.BO
open Rene Spec Sweep

/-- One merge. -/
def mg (l : List ℕ) (f s : ℕ) : List ℕ :=
  (((l.set f (min (l.getD f 0) (l.getD s 0))).set s (min (l.getD f 0) (l.getD s 0))).set (l.getD f 0)
    (min (l.getD f 0) (l.getD s 0))).set (l.getD s 0) (min (l.getD f 0) (l.getD s 0))

/-- At most the given number of merges. -/
inductive Mg (n : ℕ) : ℕ → List ℕ → List ℕ → Prop
  | refl (k : ℕ) (l : List ℕ) : Mg n k l l
  | step {k f s : ℕ} {l l' : List ℕ} (hf : f < n) (hs : s < n) (h : Mg n k (mg l f s) l') : Mg n (k + 1) l l'

theorem Mg.mono {n k k' : ℕ} {l l' : List ℕ} (h : Mg n k l l') (hk : k ≤ k') : Mg n k' l l' := by
  induction h generalizing k' with
  | refl k l => exact .refl _ _
  | step hf hs _ ih =>
    obtain ⟨j, rfl⟩ : ∃ j, k' = j + 1 := ⟨k' - 1, by omega⟩
    exact .step hf hs (ih (by omega))

theorem Mg.trans {n k k' : ℕ} {l l' l'' : List ℕ} (h : Mg n k l l') (h' : Mg n k' l' l'') : Mg n (k + k') l l'' := by
  induction h with
  | refl k l => exact h'.mono (by omega)
  | @step k f s l l' hf hs _ ih =>
    rw [show k + 1 + k' = (k + k') + 1 by omega]
    exact .step hf hs (ih h')

/-- All ids are in range. -/
structure Wk (n : ℕ) (R : Reg) : Prop where
  sids : ∀ x ∈ R.lin.segmentsIds, x < n
  mlen : R.minColl.length = n
  mlt : ∀ x ∈ R.minColl, x < n

structure St (n k : ℕ) (R R' : Reg) : Prop where
  wk : Wk n R'
  pre : ∃ t, R'.lin.endpoints = R.lin.endpoints ++ t
  mgs : Mg n k R.minColl R'.minColl

theorem St.trans {n k k' : ℕ} {R R' R'' : Reg} (h : St n k R R') (h' : St n k' R' R'') : St n (k + k') R R'' := by
  obtain ⟨t, ht⟩ := h.pre
  obtain ⟨t', ht'⟩ := h'.pre
  exact ⟨h'.wk, ⟨t ++ t', by rw [ht', ht, List.append_assoc]⟩, h.mgs.trans h'.mgs⟩

theorem St.mono {n k k' : ℕ} {R R' : Reg} (h : St n k R R') (hk : k ≤ k') : St n k' R R' := ⟨h.wk, h.pre, h.mgs.mono hk⟩

theorem St.refl {n : ℕ} {R : Reg} (k : ℕ) (h : Wk n R) : St n k R R := ⟨h, ⟨[], by simp⟩, .refl _ _⟩

theorem St.same {n : ℕ} {R R' : Reg} (h : Wk n R) (e1 : R'.lin.segmentsIds = R.lin.segmentsIds)
    (e2 : R'.lin.endpoints = R.lin.endpoints) (e3 : R'.minColl = R.minColl) : St n 0 R R' :=
  ⟨⟨by rw [e1]; exact h.sids, by rw [e3]; exact h.mlen, by rw [e3]; exact h.mlt⟩, ⟨[], by rw [e2]; simp⟩,
    by rw [e3]; exact .refl _ _⟩

theorem St.to {n k : ℕ} {R R' R'' : Reg} (h : St n k R R') (e1 : R''.lin.segmentsIds = R'.lin.segmentsIds)
    (e2 : R''.lin.endpoints = R'.lin.endpoints) (e3 : R''.minColl = R'.minColl) : St n k R R'' := by
  have := h.trans (St.same h.wk e1 e2 e3)
  exact this

theorem getD_lt {n : ℕ} {l : List ℕ} (hn : 0 < n) (h : ∀ x ∈ l, x < n) (i : ℕ) : l.getD i 0 < n := by
  rw [List.getD_eq_getElem?_getD]
  cases k : l[i]? with
  | none => exact hn
  | some x => exact h x (List.mem_of_getElem? k)

theorem mem_mg {n : ℕ} {l : List ℕ} (hn : 0 < n) (h : ∀ x ∈ l, x < n) (f s : ℕ) : ∀ x ∈ mg l f s, x < n := by
  intro x hx
  have hm : min (l.getD f 0) (l.getD s 0) < n := lt_of_le_of_lt (min_le_left _ _) (getD_lt hn h f)
  unfold mg at hx
  rcases List.mem_or_eq_of_mem_set hx with hx | rfl
  · rcases List.mem_or_eq_of_mem_set hx with hx | rfl
    · rcases List.mem_or_eq_of_mem_set hx with hx | rfl
      · rcases List.mem_or_eq_of_mem_set hx with hx | rfl
        · exact h x hx
        · exact hm
      · exact hm
    · exact hm
  · exact hm

section
variable {n : ℕ} (hn : 0 < n)
include hn

theorem Wk.sid {R : Reg} (h : Wk n R) (e : ℕ) : R.leftSid e < n := getD_lt hn h.sids _

theorem st_merge {R : Reg} (h : Wk n R) (f s : ℕ) : St n 1 R (R.merge f s) := by
  have e : (R.merge f s).minColl = mg R.minColl (R.leftSid f) (R.leftSid s) := rfl
  refine ⟨⟨h.sids, ?_, ?_⟩, ⟨[], by rw [List.append_nil]; rfl⟩, ?_⟩
  · rw [e, mg]; simp only [List.length_set]; exact h.mlen
  · rw [e]; exact mem_mg hn h.mlt _ _
  · rw [e]; exact .step (h.sid hn f) (h.sid hn s) (.refl _ _)

theorem st_divide {R : Reg} (h : Wk n R) (e : ℕ) (m : Point) : St n 0 R (R.divide e m).1 := by
  refine ⟨⟨?_, h.mlen, h.mlt⟩, ?_, .refl _ _⟩
  · intro x hx
    have : x ∈ R.lin.segmentsIds ++ [R.lin.sid e] := hx
    rcases List.mem_append.mp this with k | k
    · exact h.sids x k
    · rw [List.mem_singleton.mp k]; exact h.sid hn e
  · exact ⟨[m, m], by simp [Reg.divide, Lin.divide]⟩

theorem st_mid {R : Reg} (h : Wk n R) (e : ℕ) (m : Point) : St n 0 R (R.divideByMidpoint e m) :=
  (st_divide hn h e m).to rfl rfl rfl

theorem st_merging {R : Reg} (h : Wk n R) (e q : ℕ) (m : Point) : St n 1 R (R.divideMerging e m q) := by
  have a := st_divide hn h e m
  have b : St n 0 (R.divide e m).1 ((R.divide e m).1.push (R.divide e m).2.1) := .same a.wk rfl rfl rfl
  exact (a.trans b).trans (st_merge hn b.wk _ _)

theorem st_remove {R : Reg} (h : Wk n R) (e : ℕ) : St n 0 R (R.remove e) := .same h rfl rfl rfl

theorem st_check {R : Reg} (h : Wk n R) (e : ℕ) (m : Point) : St n 1 R (R.divideCheckingAbove e m) := by
  unfold Reg.divideCheckingAbove
  cases R.above e with
  | none => exact (st_mid hn h e m).mono (by omega)
  | some x =>
    simp only
    split
    · have a := st_remove hn h x
      have b := st_mid hn a.wk e m
      exact (a.trans b).trans (st_merge hn b.wk _ _)
    · exact (st_mid hn h e m).mono (by omega)

theorem st_longer {R : Reg} (h : Wk n R) (b e : ℕ) : St n 1 R (R.divideLonger b e) := by
  unfold Reg.divideLonger
  simp only
  generalize (if (R.end e).ltB (R.end b) then b else e) = u
  generalize (if (R.end e).ltB (R.end b) then e else b) = v
  have a := st_remove hn h u
  have a2 := st_divide hn a.wk u ((R.remove u).end v)
  have a3 : St n 0 _ (((R.remove u).divide u ((R.remove u).end v)).1.push ((R.remove u).divide u ((R.remove u).end v)).2.2) :=
    .same a2.wk rfl rfl rfl
  exact ((a.trans a2).trans a3).trans (st_merge hn a3.wk _ _)

theorem st_midSegment {R : Reg} (h : Wk n R) (e q : ℕ) (m m' : Point) : St n 1 R (R.divideByMidSegment e q m m') :=
  have a := st_mid hn h e m'
  a.trans (st_merging hn a.wk _ _ _)

theorem st_overlapping {R : Reg} (h : Wk n R) (e q : ℕ) (m m' : Point) : St n 1 R (R.divideOverlapping e q m m') :=
  have a := st_mid hn h q m'
  a.trans (st_merging hn a.wk _ _ _)

theorem st_detect {R : Reg} (h : Wk n R) (b e : ℕ) : St n 1 R (R.detect b e) := by
  unfold Reg.detect
  simp only
  repeat' split
  all_goals first
    | with_reducible exact .refl 1 h
    | with_reducible exact st_longer hn h _ _
    | with_reducible exact st_merging hn h _ _ _
    | with_reducible exact st_midSegment hn h _ _ _ _
    | with_reducible exact st_overlapping hn h _ _ _ _
    | with_reducible exact (st_mid hn h _ _).mono (Nat.zero_le _)
    | with_reducible exact st_check hn h _ _
    | exact (st_mid hn h _ _).trans (st_check hn (st_mid hn h _ _).wk _ _)

theorem st_detectIntersection {R : Reg} (h : Wk n R) (b e : ℕ) : St n 1 R (R.detectIntersection b e) :=
  (st_detect hn h b e).to rfl rfl rfl

theorem st_left {R : Reg} (h : Wk n R) (e : ℕ) : St n 2 R (R.processLeft e) := by
  cases hf : R.find e with
  | some q =>
    have : R.processLeft e = R.merge q e := by unfold Reg.processLeft; rw [hf]
    rw [this]; exact (st_merge hn h _ _).mono (by omega)
  | none =>
    have a : St n 0 R (R.add e) := .same h rfl rfl rfl
    have key : ∀ X, St n 1 R X → ∀ o : Option ℕ, St n 2 R (match o with
      | some x => X.detectIntersection e x
      | none => X) := by
      intro X one o
      cases o with
      | none => exact one.mono (by omega)
      | some x => exact one.trans (st_detectIntersection hn one.wk _ _)
    unfold Reg.processLeft
    rw [hf]
    refine key _ ?_ _
    cases (R.add e).below e with
    | none => exact a.mono (by omega)
    | some b =>
      have := a.trans (st_detectIntersection hn a.wk b e)
      exact this

theorem st_right {R : Reg} (h : Wk n R) (e : ℕ) : St n 2 R (R.processRight e) := by
  cases hf : R.find (R.opp e) with
  | none =>
    have : R.processRight e = R := by unfold Reg.processRight; simp only [hf]
    rw [this]; exact .refl 2 h
  | some q =>
    have a := st_remove hn h q
    have key : ∀ o o' : Option ℕ, St n 1 R (match o, o' with
      | some b, some x => (R.remove q).detectIntersection b x
      | _, _ => R.remove q) := by
      intro o o'
      cases o with
      | none => exact a.mono (by omega)
      | some b =>
        cases o' with
        | none => exact a.mono (by omega)
        | some x => 
          have := a.trans (st_detectIntersection hn a.wk b x)
          exact this
    unfold Reg.processRight
    simp only [hf]
    have k := key (R.below q) (R.above q)
    exact k.trans (st_merge hn k.wk _ _)

theorem st_process {R : Reg} (h : Wk n R) (e : ℕ) : St n 2 R (R.process e) := by
  unfold Reg.process
  simp only
  have a : St n 0 R { R with lin := { R.lin with queue := R.lin.queue.erase e } } := .same h rfl rfl rfl
  split
  · exact a.trans (st_left hn a.wk e)
  · exact a.trans (st_right hn a.wk e)

end

/-! ### Merges keep some pair joined -/

/-- The parent. -/
def par (l : List ℕ) (z : ℕ) : ℕ := l.getD z 0

theorem par_mg {n : ℕ} {l : List ℕ} (hl : l.length = n) (hlt : ∀ x ∈ l, x < n) {f s : ℕ} (hf : f < n) (hs : s < n) (z : ℕ) :
    par (mg l f s) z = if z = f ∨ z = s ∨ z = par l f ∨ z = par l s then min (par l f) (par l s) else par l z :=
  getD_set4 (by omega) (by omega) (by rw [hl]; exact getD_lt (by omega) hlt f) (by rw [hl]; exact getD_lt (by omega) hlt s)

/-- Some two different elements have a common ancestor. -/
def Join (G : ℕ → Prop) (l : List ℕ) : Prop := ∃ x y, G x ∧ G y ∧ x ≠ y ∧ ∃ a b, (par l)^[a] x = (par l)^[b] y

theorem Join.mk' {G : ℕ → Prop} {l : List ℕ} {x y : ℕ} (a b : ℕ) (hx : G x) (hy : G y) (h : x ≠ y)
    (k : (par l)^[a] x = (par l)^[b] y) : Join G l := ⟨x, y, hx, hy, h, a, b, k⟩

/-- What one merge does. -/
def MgF (P P' : ℕ → ℕ) (f s : ℕ) : Prop :=
  ∀ z, P' z = if z = f ∨ z = s ∨ z = P f ∨ z = P s then min (P f) (P s) else P z

theorem mgf_chain {n : ℕ} {G : ℕ → Prop} {P P1 : ℕ → ℕ} {f s : ℕ} (h0 : ∀ z < n, P z ≠ z → G z ∧ G (P z))
    (h : MgF P P1 f s) {z : ℕ} (hz : z < n) (k1 : P1 z ≠ z) (k2 : P1 (P1 z) ≠ P1 z) : G z := by
  have q1 := h z
  have q2 := h (P1 z)
  have := h0 z hz
  grind

theorem mgf_one {n : ℕ} {G : ℕ → Prop} {P P1 : ℕ → ℕ} {f s : ℕ} (hf : f < n) (hs : s < n)
    (h0 : ∀ z < n, P z ≠ z → G z ∧ G (P z)) (h : MgF P P1 f s) {x : ℕ} (hx : x < n) (hpx : P x ≠ x) :
    ∃ x y, G x ∧ G y ∧ x ≠ y ∧ (P1 x = y ∨ P1 x = P1 y) := by
  obtain ⟨gx, gy⟩ := h0 x hx hpx
  have q1 := h x
  have q2 := h (P x)
  have q3 := h f
  have q4 := h s
  by_cases t : x = f ∨ x = s
  · exact ⟨x, P x, gx, gy, hpx.symm, Or.inr (by grind)⟩
  · by_cases t1 : x = P f
    · have := h0 f hf
      exact ⟨x, f, gx, by grind, by grind, Or.inr (by grind)⟩
    · by_cases t2 : x = P s
      · have := h0 s hs
        exact ⟨x, s, gx, by grind, by grind, Or.inr (by grind)⟩
      · exact ⟨x, P x, gx, gy, hpx.symm, Or.inl (by grind)⟩

theorem mgf_two {n : ℕ} {G : ℕ → Prop} {P P1 : ℕ → ℕ} {f s : ℕ} (hf : f < n) (hs : s < n)
    (chain : ∀ z < n, P z ≠ z → P (P z) ≠ P z → G z) (h : MgF P P1 f s) {x y : ℕ} (gx : G x) (gy : G y) (hne : x ≠ y)
    (k : P x = y ∨ P x = P y) :
    ∃ x y, G x ∧ G y ∧ x ≠ y ∧ (P1 x = y ∨ P1 x = P1 y ∨ P1 x = P1 (P1 y) ∨ P1 y = P1 (P1 x)) := by
  have q3 := h f
  have q4 := h s
  have cf := chain f hf
  have cs := chain s hs
  have cut : ∀ u, G u → P u ≠ u → (u = P f ∧ u ≠ f) ∨ (u = P s ∧ u ≠ s) →
      ∃ x y, G x ∧ G y ∧ x ≠ y ∧ (P1 x = y ∨ P1 x = P1 y ∨ P1 x = P1 (P1 y) ∨ P1 y = P1 (P1 x)) := by
    intro u gu hu k
    have q := h u
    rcases k with ⟨k, k'⟩ | ⟨k, k'⟩
    · exact ⟨u, f, gu, cf (by grind) (by grind), k', Or.inr (Or.inl (by grind))⟩
    · exact ⟨u, s, gu, cs (by grind) (by grind), k', Or.inr (Or.inl (by grind))⟩
  by_cases c1 : P x ≠ x ∧ ((x = P f ∧ x ≠ f) ∨ (x = P s ∧ x ≠ s))
  · exact cut x gx c1.1 c1.2
  · by_cases c2 : P y ≠ y ∧ ((y = P f ∧ y ≠ f) ∨ (y = P s ∧ y ≠ s))
    · exact cut y gy c2.1 c2.2
    · clear cut cf cs chain
      refine ⟨x, y, gx, gy, hne, ?_⟩
      have q1 := h x
      have q2 := h y
      have q5 := h (P x)
      have q6 := h (P y)
      clear h
      grind

/-- At most two merges of a map all the non-trivial parts of which belong to `G`. -/
theorem join_of_mg {n : ℕ} {G : ℕ → Prop} {l l' : List ℕ} (hl : l.length = n) (hlt : ∀ x ∈ l, x < n)
    (h0 : ∀ z < n, par l z ≠ z → G z ∧ G (par l z)) (hex : ∃ z < n, par l z ≠ z) (h : Mg n 2 l l') : Join G l' := by
  have J : ∀ {l : List ℕ} {x y : ℕ}, G x → G y → x ≠ y → (par l x = y ∨ par l x = par l y ∨ par l x = par l (par l y) ∨
      par l y = par l (par l x)) → Join G l := by
    intro l x y hx hy hne k
    rcases k with k | k | k | k
    · exact .mk' 1 0 hx hy hne k
    · exact .mk' 1 1 hx hy hne k
    · exact .mk' 1 2 hx hy hne k
    · exact .mk' 2 1 hx hy hne k.symm
  obtain ⟨x, hx, hpx⟩ := hex
  obtain ⟨gx, gy⟩ := h0 x hx hpx
  generalize hk : 2 = k at h
  cases h with
  | refl => exact J gx gy hpx.symm (Or.inl rfl)
  | @step k f s _ _ hf hs h =>
    have hn : 0 < n := by omega
    have p1 : MgF (par l) (par (mg l f s)) f s := par_mg hl hlt hf hs
    have hl1 : (mg l f s).length = n := by unfold mg; simp only [List.length_set]; exact hl
    have hlt1 := mem_mg hn hlt f s
    have chain := fun z hz k1 k2 => mgf_chain h0 p1 (z := z) hz k1 k2
    obtain ⟨x, y, gx, gy, hne, k1⟩ := mgf_one hf hs h0 p1 hx hpx
    cases h with
    | refl =>
      rcases k1 with k1 | k1
      · exact J gx gy hne (Or.inl k1)
      · exact J gx gy hne (Or.inr (Or.inl k1))
    | @step k' f' s' _ _ hf' hs' h =>
      have p2 : MgF (par (mg l f s)) (par (mg (mg l f s) f' s')) f' s' := par_mg hl1 hlt1 hf' hs'
      have hk0 : k' = 0 := by omega
      subst hk0
      cases h
      obtain ⟨x, y, gx, gy, hne, k⟩ := mgf_two hf' hs' chain p2 gx gy hne k1
      exact J gx gy hne k

/-- A joined pair is reported as collinear, or an `assert` fails. -/
theorem areCollinear_of_join {R : Reg} {x y a b : ℕ} (h : (par R.minColl)^[a] x = (par R.minColl)^[b] y) :
    R.areCollinear x y = none ∨ R.areCollinear x y = some true := by
  have fix : ∀ fuel z, (R.minCollinear fuel z).2 < fuel → ∃ n, (R.minCollinear fuel z).1 = (par R.minColl)^[n] z ∧
      par R.minColl (R.minCollinear fuel z).1 = (R.minCollinear fuel z).1 := by
    intro fuel
    induction fuel with
    | zero => intro z h; simp [Reg.minCollinear] at h
    | succ fuel ih =>
      intro z h
      rw [Reg.minCollinear] at h ⊢
      by_cases k : R.parent z ≠ z
      · rw [if_pos k] at h ⊢
        obtain ⟨n, k1, k2⟩ := ih (R.parent z) (by simp only at h; omega)
        exact ⟨n + 1, by rw [Function.iterate_succ_apply]; exact k1, k2⟩
      · rw [if_neg k] at h ⊢
        push Not at k
        exact ⟨0, rfl, k⟩
  have it : ∀ {w : ℕ} (n : ℕ), par R.minColl w = w → (par R.minColl)^[n] w = w := fun n hw =>
    Function.iterate_fixed hw n
  have fix' : ∀ z r, R.toMinCollinear z = some r → ∃ n, ∀ k, (par R.minColl)^[n + k] z = r := by
    intro z r hr
    unfold Reg.toMinCollinear at hr
    simp only at hr
    by_cases k : (R.minCollinear 3 z).2 < 3
    · rw [if_pos k] at hr
      injection hr with hr
      obtain ⟨n, k1, k2⟩ := fix 3 z k
      refine ⟨n, fun j => ?_⟩
      rw [Nat.add_comm, Function.iterate_add_apply, ← k1, it j k2, hr]
    · rw [if_neg k] at hr; cases hr
  unfold Reg.areCollinear
  cases hx : R.toMinCollinear x with
  | none => exact Or.inl rfl
  | some u =>
    cases hy : R.toMinCollinear y with
    | none => exact Or.inl rfl
    | some v =>
      right
      obtain ⟨n, k1⟩ := fix' x u hx
      obtain ⟨m, k2⟩ := fix' y v hy
      have e : (par R.minColl)^[n + m] ((par R.minColl)^[a] x) = (par R.minColl)^[n + m] ((par R.minColl)^[b] y) := by rw [h]
      rw [← Function.iterate_add_apply, ← Function.iterate_add_apply] at e
      have e1 := k1 (m + a)
      have e2 := k2 (n + b)
      rw [show n + (m + a) = n + m + a by omega] at e1
      rw [show m + (n + b) = n + m + b by omega] at e2
      simp only [Option.some.injEq, decide_eq_true_eq]
      rw [← e1, ← e2, e]

end Rene.BO
