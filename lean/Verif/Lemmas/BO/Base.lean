import Verif.Lemmas.BO.Wf

/-! The part of the invariant of the validity sweep which holds until the first bad contact is reported. -/

namespace Rene.BO
open Rene Spec Sweep

variable {c : Ctx} {β : ℚ}

theorem sid_eq (R : Reg) (e : ℕ) : R.sid e = R.lin.sid (R.lin.toLeft e) := rfl

theorem sid_left (R : Reg) {e : ℕ} (h : e % 2 = 0) : R.sid e = R.lin.sid e := by
  rw [sid_eq]; unfold Lin.toLeft; rw [if_pos (isLeft_iff.mpr h)]

theorem sid_right (R : Reg) {e : ℕ} (h : e % 2 ≠ 0) : R.sid e = R.lin.sid (R.lin.opp e) := by
  rw [sid_eq]; unfold Lin.toLeft; rw [if_neg (fun g => h (isLeft_iff.mp g))]

/-- Some piece of the segment starts at the abscissa `β`. -/
def InG (c : Ctx) (β : ℚ) (S : Lin) (z : ℕ) : Prop := ∃ e, IsL S e ∧ S.sid e = z ∧ lx c S e = β

/-- Some event of the segment at the abscissa `β` belongs to the current group or is queued. -/
def Present (c : Ctx) (β : ℚ) (R : Reg) (p : Point) (ids : List ℕ) (z : ℕ) : Prop :=
  (c.X p = β ∧ z ∈ ids) ∨ ∃ e ∈ R.lin.queue, lx c R.lin e = β ∧ R.sid e = z

/-- Holds until the first bad contact is reported. -/
structure Base (c : Ctx) (β : ℚ) (R : Reg) (p : Point) (ids : List ℕ) : Prop where
  wf : WfB c R.lin
  pP : p ∈ c.P
  pβ : c.X p ≤ β
  qlt : ∀ e ∈ R.lin.queue, e < cnt R.lin
  qnd : R.lin.queue.Nodup
  qge : ∀ e ∈ R.lin.queue, c.X p ≤ lx c R.lin e
  sl : ∀ e ∈ R.lin.sweepLine, IsL R.lin e ∧ lx c R.lin e ≤ c.X p
  slq : ∀ e ∈ R.lin.sweepLine, e ∉ R.lin.queue
  mlen : R.minColl.length = c.N
  mc : ∀ z < c.N, R.parent z ≠ z → InG c β R.lin z ∧ InG c β R.lin (R.parent z)
  pres : ∀ e < cnt R.lin, lx c R.lin e = β → Present c β R p ids (R.sid e)

/-- Some segment appears twice at the bad point. -/
def D1 (c : Ctx) (β : ℚ) (R : Reg) (p : Point) (ids : List ℕ) : Prop :=
  (∃ e ∈ R.lin.queue, ∃ e' ∈ R.lin.queue, e ≠ e' ∧ lx c R.lin e = β ∧ lx c R.lin e' = β ∧ R.sid e = R.sid e') ∨
  (c.X p = β ∧ ∃ e ∈ R.lin.queue, lx c R.lin e = β ∧ R.sid e ∈ ids) ∨
  (c.X p = β ∧ ¬ ids.Nodup)

/-- Some segments were merged. -/
def D2 (c : Ctx) (R : Reg) : Prop := ∃ z < c.N, R.parent z ≠ z

/-- A report of a bad contact cannot be avoided any more. -/
def Doom (c : Ctx) (β : ℚ) (R : Reg) (p : Point) (ids : List ℕ) : Prop := D1 c β R p ids ∨ D2 c R

/-- What never changes. -/
structure Mv (R R' : Reg) : Prop where
  cnt : cnt R.lin ≤ cnt R'.lin
  start : ∀ x < Sweep.cnt R.lin, R'.lin.start x = R.lin.start x
  sid : ∀ x < Sweep.cnt R.lin, R'.sid x = R.sid x
  queue : ∀ x ∈ R.lin.queue, x ∈ R'.lin.queue
  queue' : ∀ x < Sweep.cnt R.lin, x ∈ R'.lin.queue → x ∈ R.lin.queue
  ok : R.lin.ok = false → R'.lin.ok = false
  oppOr : ∀ x, IsL R.lin x → R'.lin.opp x = R.lin.opp x ∨ Sweep.cnt R.lin ≤ R'.lin.opp x

theorem Mv.refl (R : Reg) : Mv R R := ⟨le_rfl, fun _ _ => rfl, fun _ _ => rfl, fun _ h => h, fun _ _ h => h, fun h => h,
  fun _ _ => Or.inl rfl⟩

theorem Mv.trans {R R' R'' : Reg} (h : Mv R R') (h' : Mv R' R'') : Mv R R'' :=
  ⟨h.cnt.trans h'.cnt, fun x hx => by rw [h'.start x (lt_of_lt_of_le hx h.cnt), h.start x hx],
    fun x hx => by rw [h'.sid x (lt_of_lt_of_le hx h.cnt), h.sid x hx], fun x hx => h'.queue x (h.queue x hx),
    fun x hx hq => h.queue' x hx (h'.queue' x (lt_of_lt_of_le hx h.cnt) hq), fun k => h'.ok (h.ok k),
    fun x hx => by
      rcases h'.oppOr x ⟨lt_of_lt_of_le hx.1 h.cnt, hx.2⟩ with k | k
      · rw [k]; exact h.oppOr x hx
      · exact Or.inr (h.cnt.trans k)⟩

theorem Mv.isL {R R' : Reg} (h : Mv R R') {e : ℕ} (he : IsL R.lin e) : IsL R'.lin e :=
  ⟨lt_of_lt_of_le he.1 h.cnt, he.2⟩

theorem Mv.lx {R R' : Reg} (h : Mv R R') {e : ℕ} (he : e < Sweep.cnt R.lin) :
    Sweep.lx c R'.lin e = Sweep.lx c R.lin e := by unfold Sweep.lx; rw [h.start e he]

theorem Mv.lsid {R R' : Reg} (h : Mv R R') {e : ℕ} (he : IsL R.lin e) : R'.lin.sid e = R.lin.sid e := by
  rw [← sid_left R' he.2, ← sid_left R he.2, h.sid e he.1]

theorem Mv.d1 {R R' : Reg} (h : Mv R R') {p : Point} {ids : List ℕ} (hq : ∀ e ∈ R.lin.queue, e < Sweep.cnt R.lin)
    (d : D1 c β R p ids) : D1 c β R' p ids := by
  rcases d with ⟨e, he, e', he', hne, k1, k2, k3⟩ | ⟨k, e, he, k1, k2⟩ | k
  · exact Or.inl ⟨e, h.queue e he, e', h.queue e' he', hne, by rw [h.lx (hq e he), k1], by rw [h.lx (hq e' he'), k2],
      by rw [h.sid e (hq e he), h.sid e' (hq e' he'), k3]⟩
  · exact Or.inr (Or.inl ⟨k, e, h.queue e he, by rw [h.lx (hq e he), k1], by rw [h.sid e (hq e he)]; exact k2⟩)
  · exact Or.inr (Or.inr k)

theorem Mv.inG {R R' : Reg} (h : Mv R R') {z : ℕ} (g : InG c β R.lin z) : InG c β R'.lin z := by
  obtain ⟨e, he, k1, k2⟩ := g
  exact ⟨e, h.isL he, by rw [h.lsid he, k1], by rw [h.lx he.1, k2]⟩

theorem Mv.present {R R' : Reg} (h : Mv R R') {p : Point} {ids : List ℕ} {z : ℕ}
    (hq : ∀ e ∈ R.lin.queue, e < Sweep.cnt R.lin) (g : Present c β R p ids z) : Present c β R' p ids z := by
  rcases g with k | ⟨e, he, k1, k2⟩
  · exact Or.inl k
  · exact Or.inr ⟨e, h.queue e he, by rw [h.lx (hq e he), k1], by rw [h.sid e (hq e he), k2]⟩

section
variable {S S' : Lin} {e : ℕ} {m : Point}

theorem div_sid (w : WfB c S) (he : IsL S e) (d : Div S S' e m) {x : ℕ} (hx : x < cnt S) :
    S'.sid (S'.toLeft x) = S.sid (S.toLeft x) := by
  unfold Lin.toLeft
  by_cases hl : isLeft x = true
  · rw [if_pos hl, if_pos hl, d.sid_old x hx]
  · rw [if_neg hl, if_neg hl]
    have hxe : x ≠ e := fun g => hl (isLeft_iff.mpr (g ▸ he.2))
    by_cases hxo : x = S.opp e
    · subst hxo; rw [d.opp_oe, d.sid_new, w.oppOpp e he.1]
    · rw [d.opp_old x hx hxe hxo, d.sid_old _ (w.oppLt x hx)]

theorem div_sid_new (w : WfB c S) (d : Div S S' e m) : S'.sid (S'.toLeft (cnt S)) = S.sid e := by
  unfold Lin.toLeft
  rw [if_pos (isLeft_iff.mpr w.even), d.sid_new]

theorem div_sid_new' (w : WfB c S) (he : IsL S e) (d : Div S S' e m) :
    S'.sid (S'.toLeft (cnt S + 1)) = S.sid e := by
  unfold Lin.toLeft
  rw [if_neg (fun g => by have := isLeft_iff.mp g; have := w.even; omega), d.opp_new', d.sid_old e he.1]

end

variable {R R' : Reg} {p : Point} {ids : List ℕ} {e : ℕ} {m : Point}

/-- A division with any non-empty choice of pushed halves (when it is at the bad point). -/
theorem base_div (h : Base c β R p ids) (he : IsL R.lin e) (hm : m ∈ c.P) (hon : c.On (R.lin.sid e) m)
    (hint : Int c R.lin e (c.X m)) (hβ : β ≤ c.X m)
    (e1 : R'.lin.endpoints = (R.lin.divide e m).1.endpoints) (e2 : R'.lin.opposites = (R.lin.divide e m).1.opposites)
    (e3 : R'.lin.segmentsIds = (R.lin.divide e m).1.segmentsIds)
    (hsl : ∀ x ∈ R'.lin.sweepLine, x ∈ R.lin.sweepLine) (hmc : R'.minColl = R.minColl) (L : List ℕ)
    (hL : R'.lin.queue = L ++ R.lin.queue) (hLn : L.Nodup) (hLs : ∀ x ∈ L, x = cnt R.lin ∨ x = cnt R.lin + 1)
    (hne : c.X m = β → L ≠ []) (hok : R.lin.ok = false → R'.lin.ok = false) :
    Base c β R' p ids ∧ Mv R R' ∧ Div R.lin R'.lin e m := by
  have d : Div R.lin R'.lin e m := by
    have d := h.wf.divided he.1 m
    obtain ⟨⟨fc', ep', op', sg', q', sl', ok'⟩, mc'⟩ := R'
    simp only at e1 e2 e3
    subst e1 e2 e3
    exact ⟨d.cnt, d.start_old, d.start_new, d.start_new', d.opp_new, d.opp_new', d.opp_e, d.opp_oe, d.opp_old, d.sid_old,
      d.sid_new, d.lenO, d.lenS⟩
  have w := h.wf.div he hm hon hint.1 hint.2 d
  have mv : Mv R R' := by
    refine ⟨by rw [d.cnt]; omega, d.start_old, fun x hx => ?_, fun x hx => ?_, fun x hx hq => ?_, hok, fun x hx => ?_⟩
    · rw [sid_eq, sid_eq]; exact div_sid h.wf he d hx
    · rw [hL]; exact List.mem_append_right _ hx
    · rw [hL, List.mem_append] at hq
      rcases hq with k | k
      · rcases hLs x k with k | k <;> omega
      · exact k
    · by_cases hxe : x = e
      · right; rw [hxe, d.opp_e]; omega
      · left
        exact d.opp_old x hx.1 hxe (fun g => h.wf.oppPar e he.1 (by rw [← g, hx.2, he.2]))
  have snew : ∀ x, x = cnt R.lin ∨ x = cnt R.lin + 1 → R'.lin.start x = m ∧ R'.sid x = R.lin.sid e := by
    rintro x (rfl | rfl)
    · exact ⟨d.start_new, div_sid_new h.wf d⟩
    · exact ⟨d.start_new', div_sid_new' h.wf he d⟩
  refine ⟨⟨w, h.pP, h.pβ, ?_, ?_, ?_, ?_, fun x hx hq => h.slq x (hsl x hx) (mv.queue' x (h.sl x (hsl x hx)).1.1 hq), by rw [hmc]; exact h.mlen, ?_, ?_⟩, mv, d⟩
  · intro x hx
    rw [hL, List.mem_append] at hx
    rw [d.cnt]
    rcases hx with k | k
    · rcases hLs x k with k | k <;> omega
    · have := h.qlt x k; omega
  · rw [hL, List.nodup_append]
    refine ⟨hLn, h.qnd, fun x hx y hy hxy => ?_⟩
    have := h.qlt y hy
    rcases hLs x hx with k | k <;> omega
  · intro x hx
    rw [hL, List.mem_append] at hx
    rcases hx with k | k
    · unfold lx; rw [(snew x (hLs x k)).1]; exact h.pβ.trans hβ
    · rw [mv.lx (h.qlt x k)]; exact h.qge x k
  · intro x hx
    obtain ⟨k1, k2⟩ := h.sl x (hsl x hx)
    exact ⟨mv.isL k1, by rw [mv.lx k1.1]; exact k2⟩
  · intro z hz hp
    have e : R'.parent z = R.parent z := by unfold Reg.parent; rw [hmc]
    rw [e] at hp ⊢
    exact ⟨mv.inG (h.mc z hz hp).1, mv.inG (h.mc z hz hp).2⟩
  · intro x hx hb
    by_cases hx' : x < cnt R.lin
    · rw [mv.sid x hx']
      rw [mv.lx hx'] at hb
      exact mv.present h.qlt (h.pres x hx' hb)
    · have hx2 : x = cnt R.lin ∨ x = cnt R.lin + 1 := by rw [d.cnt] at hx; omega
      obtain ⟨k1, k2⟩ := snew x hx2
      have hmb : c.X m = β := by unfold lx at hb; rw [k1] at hb; exact hb
      obtain ⟨y, hy⟩ := List.exists_mem_of_ne_nil _ (hne hmb)
      obtain ⟨l1, l2⟩ := snew y (hLs y hy)
      refine Or.inr ⟨y, by rw [hL]; exact List.mem_append_left _ hy, by unfold lx; rw [l1, hmb], by rw [l2, k2]⟩

/-- A division which pushes both halves. -/
theorem base_mid (h : Base c β R p ids) (he : IsL R.lin e) (hm : m ∈ c.P) (hon : c.On (R.lin.sid e) m)
    (hint : Int c R.lin e (c.X m)) (hβ : β ≤ c.X m) :
    Base c β (R.divideByMidpoint e m) p ids ∧ Mv R (R.divideByMidpoint e m) ∧
      Div R.lin (R.divideByMidpoint e m).lin e m ∧ (c.X m = β → D1 c β (R.divideByMidpoint e m) p ids) := by
  obtain ⟨b, mv, d⟩ := base_div (R' := R.divideByMidpoint e m) h he hm hon hint hβ rfl rfl rfl (fun _ hx => hx) rfl
    [cnt R.lin, cnt R.lin + 1] rfl (by simp) (by simp) (by simp) (fun k => k)
  refine ⟨b, mv, d, fun hb => Or.inl ⟨cnt R.lin, ?_, cnt R.lin + 1, ?_, by omega, ?_, ?_, ?_⟩⟩
  · exact List.mem_cons_self
  · exact List.mem_cons_of_mem _ List.mem_cons_self
  · unfold lx; rw [d.start_new, hb]
  · unfold lx; rw [d.start_new', hb]
  · rw [sid_eq, sid_eq, div_sid_new h.wf d, div_sid_new' h.wf he d]

/-! ### Merging -/

theorem getD_set4 {l : List ℕ} {F G PF PG m z : ℕ} (hf : F < l.length) (hs : G < l.length) (hpf : PF < l.length)
    (hps : PG < l.length) : ((((l.set F m).set G m).set PF m).set PG m).getD z 0 =
      if z = F ∨ z = G ∨ z = PF ∨ z = PG then m else l.getD z 0 := by
  simp only [List.getD_eq_getElem?_getD, List.getElem?_set, List.length_set]
  by_cases k1 : PG = z
  · subst k1; simp [hps]
  · rw [if_neg k1]
    by_cases k2 : PF = z
    · subst k2; simp [hpf]
    · rw [if_neg k2]
      by_cases k3 : G = z
      · subst k3; simp [hs]
      · rw [if_neg k3]
        by_cases k4 : F = z
        · subst k4; simp [hf]
        · rw [if_neg k4, if_neg]
          rintro (h | h | h | h)
          · exact k4 h.symm
          · exact k3 h.symm
          · exact k2 h.symm
          · exact k1 h.symm

theorem parent_merge {f s : ℕ} {z : ℕ} (hf : R.leftSid f < R.minColl.length) (hs : R.leftSid s < R.minColl.length)
    (hpf : R.parent (R.leftSid f) < R.minColl.length) (hps : R.parent (R.leftSid s) < R.minColl.length) :
    (R.merge f s).parent z = if z = R.leftSid f ∨ z = R.leftSid s ∨ z = R.parent (R.leftSid f) ∨
      z = R.parent (R.leftSid s) then min (R.parent (R.leftSid f)) (R.parent (R.leftSid s)) else R.parent z :=
  getD_set4 hf hs hpf hps

theorem mv_merge (f s : ℕ) : Mv R (R.merge f s) :=
  ⟨le_rfl, fun _ _ => rfl, fun _ _ => rfl, fun _ h => h, fun _ _ h => h, fun h => h, fun _ _ => Or.inl rfl⟩

theorem Base.parent_lt (h : Base c β R p ids) {z : ℕ} (hz : z < c.N) : R.parent z < c.N := by
  by_cases k : R.parent z = z
  · rw [k]; exact hz
  · obtain ⟨e, he, k1, _⟩ := (h.mc z hz k).2
    rw [← k1]; exact h.wf.sidLt e he

theorem Base.parent_inG (h : Base c β R p ids) {z : ℕ} (hz : InG c β R.lin z) : InG c β R.lin (R.parent z) := by
  by_cases k : R.parent z = z
  · rw [k]; exact hz
  · obtain ⟨e, he, k1, _⟩ := hz
    exact (h.mc z (by rw [← k1]; exact h.wf.sidLt e he) k).2

theorem base_congr {R' : Reg} (h : Base c β R p ids) (hmc : R'.minColl.length = c.N)
    (e1 : R'.lin.endpoints = R.lin.endpoints) (e2 : R'.lin.opposites = R.lin.opposites)
    (e3 : R'.lin.segmentsIds = R.lin.segmentsIds) (e4 : R'.lin.queue = R.lin.queue)
    (hsl : ∀ x ∈ R'.lin.sweepLine, (IsL R.lin x ∧ lx c R.lin x ≤ c.X p) ∧ x ∉ R.lin.queue)
    (hm : ∀ z < c.N, R'.parent z ≠ z → InG c β R.lin z ∧ InG c β R.lin (R'.parent z)) : Base c β R' p ids := by
  obtain ⟨⟨fc, ep, op, sg, q, sl, ok⟩, mc⟩ := R
  obtain ⟨⟨fc', ep', op', sg', q', sl', ok'⟩, mc'⟩ := R'
  simp only at e1 e2 e3 e4
  subst e1 e2 e3 e4
  exact ⟨h.wf.congr rfl rfl rfl, h.pP, h.pβ, h.qlt, h.qnd, h.qge, fun x hx => (hsl x hx).1, fun x hx => (hsl x hx).2,
    hmc, hm, h.pres⟩

theorem base_merge (h : Base c β R p ids) {f s : ℕ} (hf : IsL R.lin f) (hs : IsL R.lin s)
    (gf : InG c β R.lin (R.lin.sid f)) (gs : InG c β R.lin (R.lin.sid s)) (hne : R.lin.sid f ≠ R.lin.sid s) :
    Base c β (R.merge f s) p ids ∧ D2 c (R.merge f s) := by
  have lf := h.wf.sidLt f hf
  have ls := h.wf.sidLt s hs
  have hm := fun z => parent_merge (R := R) (f := f) (s := s) (z := z) (by rw [h.mlen]; exact lf)
    (by rw [h.mlen]; exact ls) (by rw [h.mlen]; exact h.parent_lt lf) (by rw [h.mlen]; exact h.parent_lt ls)
  have ef : R.leftSid f = R.lin.sid f := rfl
  have es : R.leftSid s = R.lin.sid s := rfl
  rw [ef, es] at hm
  have pf := h.parent_inG gf
  have ps := h.parent_inG gs
  have gm : InG c β R.lin (min (R.parent (R.lin.sid f)) (R.parent (R.lin.sid s))) := by
    rcases min_choice (R.parent (R.lin.sid f)) (R.parent (R.lin.sid s)) with k | k <;> rw [k] <;> assumption
  constructor
  · refine base_congr h ?_ rfl rfl rfl rfl (fun x hx => ⟨h.sl x hx, h.slq x hx⟩) ?_
    · unfold Reg.merge; simp only [List.length_set]; exact h.mlen
    · intro z hz hp
      rw [hm z] at hp ⊢
      by_cases k : z = R.lin.sid f ∨ z = R.lin.sid s ∨ z = R.parent (R.lin.sid f) ∨ z = R.parent (R.lin.sid s)
      · rw [if_pos k]
        refine ⟨?_, gm⟩
        rcases k with rfl | rfl | rfl | rfl <;> assumption
      · rw [if_neg k] at hp ⊢
        exact h.mc z hz hp
  · by_contra g
    unfold D2 at g
    push Not at g
    have a1 := g _ lf
    have a2 := g _ ls
    rw [hm, if_pos (Or.inl rfl)] at a1
    rw [hm, if_pos (Or.inr (Or.inl rfl))] at a2
    exact hne (a1.symm.trans a2)

theorem base_selfmerge (h : Base c β R p ids) {f : ℕ} (hf : IsL R.lin f) :
    Base c β (R.merge f f) p ids ∧ (D2 c R → D2 c (R.merge f f)) ∧
      ((∀ z < c.N, R.parent z = z) → ∀ z < c.N, (R.merge f f).parent z = z) := by
  have lf := h.wf.sidLt f hf
  have hm := fun z => parent_merge (R := R) (f := f) (s := f) (z := z) (by rw [h.mlen]; exact lf)
    (by rw [h.mlen]; exact lf) (by rw [h.mlen]; exact h.parent_lt lf) (by rw [h.mlen]; exact h.parent_lt lf)
  have ef : R.leftSid f = R.lin.sid f := rfl
  rw [ef] at hm
  simp only [min_self] at hm
  have hm2 : ∀ z, (R.merge f f).parent z = if z = R.lin.sid f ∨ z = R.parent (R.lin.sid f) then R.parent (R.lin.sid f)
      else R.parent z := by
    intro z
    rw [hm z]
    by_cases k : z = R.lin.sid f ∨ z = R.parent (R.lin.sid f)
    · rw [if_pos k, if_pos]; rcases k with k | k
      · exact Or.inl k
      · exact Or.inr (Or.inr (Or.inl k))
    · rw [if_neg k, if_neg]
      rintro (g | g | g | g)
      · exact k (Or.inl g)
      · exact k (Or.inl g)
      · exact k (Or.inr g)
      · exact k (Or.inr g)
  clear hm
  refine ⟨?_, ?_, ?_⟩
  · refine base_congr h ?_ rfl rfl rfl rfl (fun x hx => ⟨h.sl x hx, h.slq x hx⟩) ?_
    · unfold Reg.merge; simp only [List.length_set]; exact h.mlen
    · intro z hz hp
      rw [hm2 z] at hp ⊢
      by_cases k : z = R.lin.sid f ∨ z = R.parent (R.lin.sid f)
      · rw [if_pos k] at hp ⊢
        rcases k with k | k
        · subst k; exact h.mc _ hz hp
        · exact absurd k.symm hp
      · rw [if_neg k] at hp ⊢
        exact h.mc z hz hp
  · intro ⟨z, hz, hp⟩
    by_cases g : R.parent (R.lin.sid f) = R.lin.sid f
    · refine ⟨z, hz, ?_⟩
      rw [hm2, g]
      by_cases k : z = R.lin.sid f ∨ z = R.lin.sid f
      · have : z = R.lin.sid f := by rcases k with k | k <;> exact k
        rw [this] at hp; exact absurd g hp
      · rw [if_neg k]; exact hp
    · refine ⟨R.lin.sid f, lf, ?_⟩
      rw [hm2, if_pos (Or.inl rfl)]; exact g
  · intro hid z hz
    rw [hm2]
    by_cases k : z = R.lin.sid f ∨ z = R.parent (R.lin.sid f)
    · rw [if_pos k, hid _ lf]
      rw [hid _ lf] at k
      rcases k with k | k <;> exact k.symm
    · rw [if_neg k]; exact hid z hz

end Rene.BO
