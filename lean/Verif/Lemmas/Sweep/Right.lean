import Verif.Lemmas.Sweep.Queue

/-! Processing of a right event. -/

namespace Rene.Sweep
open Rene Spec

variable {c : Ctx}

/-- A list split at an element which separates it by a comparison. -/
structure Split (lt : ℕ → ℕ → Bool) (o : ℕ) (A B : List ℕ) : Prop where
  a1 : ∀ x ∈ A, lt x o = true
  a2 : ∀ x ∈ A, lt o x = false
  b1 : ∀ x ∈ B, lt x o = false
  b2 : ∀ x ∈ B, lt o x = true
  self : lt o o = false

theorem find?_append_false {P : ℕ → Bool} : ∀ {A B : List ℕ}, (∀ x ∈ A, P x = false) →
    (A ++ B).find? P = B.find? P := by
  intro A B h
  induction A with
  | nil => rfl
  | cons a A ih =>
    rw [List.cons_append, List.find?_cons, h a (by simp)]
    exact ih (fun x hx => h x (List.mem_cons_of_mem _ hx))

theorem find?_true {P : ℕ → Bool} {B : List ℕ} (h : ∀ x ∈ B, P x = true) : B.find? P = B.head? := by
  cases B with
  | nil => rfl
  | cons b B => rw [List.find?_cons, h b (by simp)]; rfl

theorem eraseP_append_false {P : ℕ → Bool} : ∀ {A B : List ℕ}, (∀ x ∈ A, P x = false) →
    (A ++ B).eraseP P = A ++ B.eraseP P := by
  intro A B h
  induction A with
  | nil => rfl
  | cons a A ih =>
    rw [List.cons_append, List.eraseP_cons, h a (by simp)]
    simp only [Bool.cond_false, List.cons_append]
    rw [ih (fun x hx => h x (List.mem_cons_of_mem _ hx))]

section
variable {S : Lin} {o : ℕ} {A B : List ℕ}

theorem Split.find (h : Split S.sweepLt o A B) (hT : S.sweepLine = A ++ o :: B) : S.find o = some o := by
  unfold Lin.find
  rw [hT, find?_append_false, List.find?_cons]
  · simp [h.self]
  · intro x hx; simp [h.a1 x hx]

theorem Split.above (h : Split S.sweepLt o A B) (hT : S.sweepLine = A ++ o :: B) : S.above o = B.head? := by
  unfold Lin.above
  rw [hT, find?_append_false h.a2, List.find?_cons, h.self]
  exact find?_true h.b2

theorem Split.below (h : Split S.sweepLt o A B) (hT : S.sweepLine = A ++ o :: B) :
    S.below o = A.getLast? := by
  unfold Lin.below
  rw [hT, List.reverse_append, List.reverse_cons, List.append_assoc, find?_append_false,
    List.singleton_append, List.find?_cons, h.self]
  · simp only
    rw [find?_true, List.head?_reverse]
    intro x hx
    exact h.a1 x (List.mem_reverse.mp hx)
  · intro x hx
    exact h.b1 x (List.mem_reverse.mp hx)

theorem Split.remove (h : Split S.sweepLt o A B) (hT : S.sweepLine = A ++ o :: B) :
    S.remove o = { S with sweepLine := A ++ B } := by
  unfold Lin.remove
  rw [hT, eraseP_append_false, List.eraseP_cons]
  · simp [h.self]
  · intro x hx; simp [h.a1 x hx]

end

theorem Wf.set {S : Lin} (h : Wf c S) (q T : List ℕ) (k : Bool) :
    Wf c { S with queue := q, sweepLine := T, ok := k } :=
  ⟨h.even, h.lenO, h.lenS, h.oppLt, h.oppOpp, h.oppPar, h.memP, h.sidLt, h.onL, h.onR, h.lr, h.inA, h.inB,
    h.fc, h.big, h.initA, h.initB, h.initSid, h.cover, h.noOv⟩

section
variable {S : Lin} {p : Point}

/-- The position of an element of the sweep line. -/
theorem Inv0.split (h : Inv0 c S p) {A B : List ℕ} {o : ℕ} (hT : S.sweepLine = A ++ o :: B) :
    Split S.sweepLt o A B := by
  have nd := h.tnd
  rw [hT, List.nodup_append] at nd
  have so := h.sorted
  rw [hT, List.pairwise_append] at so
  have oT : o ∈ S.sweepLine := by rw [hT]; simp
  have key : ∀ x ∈ S.sweepLine, x ≠ o → ((S.sweepLt x o = true ↔ SLt c S x o) ∧
      (S.sweepLt o x = true ↔ SLt c S o x)) := by
    intro x hx hxo
    refine ⟨sweepLt_iff h.wf (h.isL hx) (h.isL oT) ((h.lx_le hx).trans (h.le_rx oT))
      ((h.lx_le oT).trans (h.le_rx hx)) (h.sameOp hx oT hxo), sweepLt_iff h.wf (h.isL oT) (h.isL hx)
      ((h.lx_le oT).trans (h.le_rx hx)) ((h.lx_le hx).trans (h.le_rx oT)) (h.sameOp oT hx hxo.symm)⟩
  have ma : ∀ x ∈ A, x ∈ S.sweepLine ∧ x ≠ o ∧ SLt c S x o := by
    intro x hx
    refine ⟨by rw [hT]; simp [hx], ?_, so.2.2 x hx o (by simp)⟩
    rintro rfl
    exact nd.2.2 x hx x (by simp) rfl
  have mb : ∀ x ∈ B, x ∈ S.sweepLine ∧ x ≠ o ∧ SLt c S o x := by
    intro x hx
    refine ⟨by rw [hT]; simp [hx], ?_, (List.pairwise_cons.mp so.2.1).1 x hx⟩
    rintro rfl
    exact (List.nodup_cons.mp nd.2.1).1 hx
  refine ⟨fun x hx => ?_, fun x hx => ?_, fun x hx => ?_, fun x hx => ?_, sweepLt_self S o⟩
  · obtain ⟨k1, k2, k3⟩ := ma x hx
    exact (key x k1 k2).1.mpr k3
  · obtain ⟨k1, k2, k3⟩ := ma x hx
    exact Bool.eq_false_iff.mpr fun z => k3.asymm ((key x k1 k2).2.mp z)
  · obtain ⟨k1, k2, k3⟩ := mb x hx
    exact Bool.eq_false_iff.mpr fun z => k3.asymm ((key x k1 k2).1.mp z)
  · obtain ⟨k1, k2, k3⟩ := mb x hx
    exact (key x k1 k2).2.mpr k3

/-- The intersection test with its `assert`s. -/
theorem detectIntersection_spec (g : c.Good) (h : Inv0 c S p) {a b : ℕ} (ha : a ∈ S.sweepLine)
    (hb : b ∈ S.sweepLine) (hab : a ≠ b) : Post c S (S.detectIntersection a b) p a b := by
  obtain ⟨⟨h1, h2, h3, h5⟩, h4⟩ := detect_spec g h ha hb hab
  have e : S.detectIntersection a b = { S.detect a b with ok := S.ok } := by
    unfold Lin.detectIntersection
    simp only [h4, h2.ok, Bool.and_true]
  rw [e]
  refine ⟨⟨h1.wf.set _ _ _, h1.pP, h1.qlt, h1.qnd, h1.qge, h1.ple, h1.tmem, h1.tnd, h1.noInt, h1.sorted, h1.v,
    h1.mono⟩, ⟨h2.cnt, h2.start, h2.sid, h2.rx, h2.new, h2.sweepLine, rfl, h2.keep, h2.meas, h2.queue, h2.newq, h2.oppOr⟩, h3,
    ⟨h5.chg, h5.ins⟩, h5.same⟩

theorem IsChain.imp_mem {R R' : ℕ → ℕ → Prop} : ∀ {l : List ℕ}, l.IsChain R →
    (∀ a ∈ l, ∀ b ∈ l, R a b → R' a b) → l.IsChain R' := by
  intro l
  induction l with
  | nil => intro _ _; exact List.isChain_nil
  | cons a l ih =>
    cases l with
    | nil => intro _ _; exact List.isChain_singleton a
    | cons b l =>
      intro h k
      rw [List.isChain_cons_cons] at *
      exact ⟨k a (by simp) b (by simp) h.1, ih h.2 (fun x hx y hy =>
        k x (List.mem_cons_of_mem _ hx) y (List.mem_cons_of_mem _ hy))⟩

theorem Ext.chain {S' : Lin} (x : Ext c S S') {l : List ℕ} (hl : ∀ e ∈ l, IsL S e)
    (h : l.IsChain (Checked c S)) : l.IsChain (Checked c S') :=
  IsChain.imp_mem h fun a ha b hb k => k.ext x (hl a ha) (hl b hb)

/-- The part of a state change that matters to the outside. -/
structure Step (c : Ctx) (S S' : Lin) (e : ℕ) : Prop where
  cnt : cnt S ≤ cnt S'
  start : ∀ x < Sweep.cnt S, S'.start x = S.start x
  sid : ∀ x < Sweep.cnt S, S'.sid x = S.sid x
  ok : S'.ok = S.ok
  keep : ∀ x, IsL S x → x ∉ S.sweepLine → x ∉ S.queue → S'.opp x = S.opp x
  meas : meas c S' < meas c S
  gone : e ∉ S'.queue
  queue : ∀ x < Sweep.cnt S, x ≠ e → (x ∈ S'.queue ↔ x ∈ S.queue)
  new : ∀ x < Sweep.cnt S', Sweep.cnt S ≤ x → x ∈ S'.queue
  oppOr : ∀ x, IsL S x → S'.opp x = S.opp x ∨ Sweep.cnt S ≤ S'.opp x
  rx : ∀ x, IsL S x → rx c S' x ≤ rx c S x

end

/-- Removing the popped event from the queue, and the passed piece from the sweep line. -/
theorem Inv.removed (g : c.Good) {S : Lin} {p : Point} (h : Inv c S p) {e : ℕ} (l : Least c S e) (hp : lx c S e = c.X p)
    (hr : ¬ isLeft e = true) {A B : List ℕ} (hT : S.sweepLine = A ++ S.opp e :: B) (k : Bool) :
    Inv0 c { S with queue := S.queue.erase e, sweepLine := A ++ B, ok := k } p := by
  have he := h.qlt e l.mem
  have er : e % 2 ≠ 0 := fun z => hr (isLeft_iff.mpr z)
  have nd := h.tnd
  rw [hT] at nd
  have ndo : S.opp e ∉ A ++ B := (List.nodup_middle.mp nd |> List.nodup_cons.mp).1
  have nd' : (A ++ B).Nodup := (List.nodup_middle.mp nd |> List.nodup_cons.mp).2
  have mT : ∀ x, x ∈ S.sweepLine ↔ x = S.opp e ∨ x ∈ A ++ B := by
    intro x; rw [hT]; simp only [List.mem_append, List.mem_cons]; tauto
  have sub : ∀ x ∈ A ++ B, x ∈ S.sweepLine := fun x hx => (mT x).mpr (Or.inr hx)
  have mq : ∀ x, x ∈ S.queue.erase e ↔ x ≠ e ∧ x ∈ S.queue := fun x => h.qnd.mem_erase_iff
  have ho : IsL S (S.opp e) := h.isL ((mT _).mpr (Or.inl rfl))
  have oo := h.wf.oppOpp e he
  refine ⟨h.wf.set _ _ _, h.pP, fun x hx => h.qlt x ((mq x).mp hx).2, h.qnd.erase e,
    fun x hx => h.qge x ((mq x).mp hx).2, ?_, ?_, nd', h.noInt, ?_, h.v, ?_⟩
  · intro x hx hxq
    by_cases hxe : x = e
    · subst hxe; exact hp.le
    · exact h.ple x hx (fun z => hxq ((mq x).mpr ⟨hxe, z⟩))
  · intro x
    show x ∈ A ++ B ↔ IsL S x ∧ x ∉ S.queue.erase e ∧ S.opp x ∈ S.queue.erase e
    constructor
    · intro hx
      obtain ⟨k1, k2, k3⟩ := (h.tmem x).mp (sub x hx)
      refine ⟨k1, fun z => k2 ((mq x).mp z).2, (mq _).mpr ⟨?_, k3⟩⟩
      rintro z
      apply ndo
      rw [← z, h.wf.oppOpp x k1.1]; exact hx
    · rintro ⟨k1, k2, k3⟩
      rw [mq] at k3
      have hxe : x ≠ e := by rintro rfl; exact er k1.2
      have hxT : x ∈ S.sweepLine := (h.tmem x).mpr ⟨k1, fun z => k2 ((mq x).mpr ⟨hxe, z⟩), k3.2⟩
      rcases (mT x).mp hxT with z | z
      · exact absurd (by rw [z, oo]) k3.1
      · exact z
  · have := h.sorted
    rw [hT] at this
    exact this.sublist ((List.sublist_cons_self _ _).append_left _)
  · intro x hx hxq hxr y hy hyp hon
    change S.opp x ∉ S.queue.erase e at hxq
    have hy' : y ∈ S.sweepLine := sub y hy
    by_cases hxe : S.opp x = e
    · have hxo : x = S.opp e := by rw [← hxe, h.wf.oppOpp x hx.1]
      subst hxo
      show c.K (S.sid y) ≤ c.K (S.sid (S.opp e))
      have sl : ∀ b ∈ S.sweepLine, lx c S b < c.X p → rx c S b = c.X p →
          c.K (S.sid b) ≤ c.K (S.sid (S.opp e)) := by
        intro b hb _ hrb
        have hbL := h.isL hb
        have hbr : ¬ isLeft (S.opp b) = true := by
          rw [isLeft_iff]; have := h.wf.oppPar b hbL.1; have := hbL.2; omega
        have := l.slope hr (S.opp b) ((h.tmem b).mp hb).2.2 hbr (by
          rw [hp, ← hrb]; rfl)
        rw [slope_right hbr, slope_right hr, h.wf.oppOpp b hbL.1] at this
        exact this
      change lx c S y < c.X p at hyp
      change c.On (S.sid y) p at hon
      rcases eq_or_lt_of_le (h.le_rx hy') with k | k
      · exact sl y hy' hyp k.symm
      · have hps : S.start e = p := (g.eq_iff (h.wf.memP e he) h.pP).mpr hp
        have eo : S.end (S.opp e) = S.start e := by unfold Lin.end; rw [oo]
        have hono : c.On (S.sid (S.opp e)) p := by
          rw [← hps, ← eo]; exact h.wf.onR _ ho
        have hro : rx c S (S.opp e) = c.X p := by unfold rx; rw [eo, hps]
        obtain ⟨a, ha, b, hb, k1, k2, k3, k4, k5⟩ := h.walk (t := c.X p) (w := p.y) (fun e he => h.lx_le he)
          (fun e he => h.le_rx he) (fun z => Int c S z (c.X p) ∧ CollE c S y z) hy'
          ((mT (S.opp e)).mpr (Or.inl rfl)) hon.symm hono.symm ⟨⟨hyp, k⟩, Ctx.Coll.refl _⟩ (by
            rintro ⟨⟨_, z⟩, _⟩; linarith)
        have hc : CollE c S a b := by
          by_contra hc
          exact (k5.2 hc (c.X p) (k1.trans k2.symm) (h.lx_le ha) (h.le_rx ha) (h.lx_le hb) (h.le_rx hb)).1 k3.1
        have hyb : CollE c S y b := Ctx.Coll.trans k3.2 hc
        have i1 := k3.1.1
        have i2 := k3.1.2
        rcases k5.1 hc with (z | z) | ⟨z, _⟩
        · have := h.lx_le hb; linarith
        · have := h.le_rx hb; linarith
        · have hrb : rx c S b = c.X p := by
            by_contra hne
            exact k4 ⟨⟨by linarith, lt_of_le_of_ne (h.le_rx hb) (fun z => hne z.symm)⟩, hyb⟩
          rw [hyb.1]
          exact sl b hb (by linarith) hrb
    · exact h.mono x hx (fun z => hxq ((mq _).mpr ⟨hxe, z⟩)) hxr y hy' hyp hon
/-- Testing the new neighbours. -/
theorem Inv0.join (g : c.Good) {S : Lin} {p : Point} (h : Inv0 c S p) {A B : List ℕ}
    (hT : S.sweepLine = A ++ B) (hA : A.IsChain (Checked c S)) (hB : B.IsChain (Checked c S)) :
    ∀ S', S' = (match A.getLast?, B.head? with
      | some b, some a => S.detectIntersection b a
      | _, _ => S) → Inv c S' p ∧ Ext c S S' := by
  intro S' hS'
  have hL : ∀ x ∈ A ++ B, IsL S x := fun x hx => h.isL (by rw [hT]; exact hx)
  split at hS'
  · rename_i b a hb ha
    have mb : b ∈ A := List.mem_of_getLast? hb
    have ma : a ∈ B := List.mem_of_mem_head? ha
    have nd := h.tnd
    rw [hT, List.nodup_append] at nd
    obtain ⟨h1, h2, h3, _⟩ := detectIntersection_spec g h (a := b) (b := a) (by rw [hT]; simp [mb])
      (by rw [hT]; simp [ma]) (nd.2.2 b mb a ma)
    rw [← hS'] at h1 h2 h3
    refine ⟨⟨h1, ?_⟩, h2⟩
    rw [h2.sweepLine, hT, List.isChain_append]
    refine ⟨h2.chain (fun x hx => hL x (by simp [hx])) hA, h2.chain (fun x hx => hL x (by simp [hx])) hB, ?_⟩
    intro x hx y hy
    rw [hb] at hx
    rw [ha] at hy
    cases hx
    cases hy
    exact h3
  · rename_i hno
    subst hS'
    refine ⟨⟨h, ?_⟩, Ext.refl _⟩
    rw [hT, List.isChain_append]
    refine ⟨hA, hB, fun x hx y hy => ?_⟩
    exact absurd hy (fun hy => hno x y hx hy)

/-- From the state without the popped event. -/
theorem step_of_ext {S S1 S' : Lin} {e : ℕ} (x : Ext c S1 S') (hnd : S.queue.Nodup) (he : e < cnt S)
    (hm : e ∈ S.queue) (h1 : S1.endpoints = S.endpoints) (h2 : S1.opposites = S.opposites)
    (h3 : S1.segmentsIds = S.segmentsIds) (h4 : S1.queue = S.queue.erase e)
    (h5 : ∀ x ∈ S1.sweepLine, x ∈ S.sweepLine ∨ x = e) (h6 : S1.ok = S.ok) : Step c S S' e := by
  have hc : cnt S1 = cnt S := by unfold Sweep.cnt; rw [h1]
  have hs : ∀ x, S1.start x = S.start x := fun x => by unfold Lin.start; rw [h1]
  have ho : ∀ x, S1.opp x = S.opp x := fun x => by unfold Lin.opp; rw [h2]
  have hi : ∀ x, S1.sid x = S.sid x := fun x => by unfold Lin.sid; rw [h3]
  have hL : ∀ x, IsL S1 x ↔ IsL S x := fun x => by unfold IsL; rw [hc]
  have hpairs : pairs c S1 = pairs c S := by
    ext u
    rw [mem_pairs, mem_pairs]
    simp only [hL, hi, lx, rx, Lin.end, hs, ho]
  have hq : ∀ x, x ∈ S1.queue ↔ x ≠ e ∧ x ∈ S.queue := fun x => by rw [h4]; exact hnd.mem_erase_iff
  refine ⟨by rw [← hc]; exact x.cnt, fun y hy => ?_, fun y hy => ?_, x.ok.trans h6, fun y hy hyT hyq => ?_, ?_, ?_,
    fun y hy hye => ?_, fun y hy hyn => x.newq y hy (by rw [hc]; exact hyn), fun y hy => ?_, fun y hy => ?_⟩
  · rw [x.start y (by rw [hc]; exact hy), hs]
  · rw [x.sid y (by rw [hc]; exact hy), hi]
  · rw [x.keep y ((hL y).mpr hy) (fun z => ?_), ho]
    rcases h5 y z with k | k
    · exact hyT k
    · exact hyq (k ▸ hm)
  · refine lt_of_le_of_lt x.meas ?_
    unfold meas
    rw [hpairs, h4, List.length_erase_of_mem hm]
    have := List.length_pos_of_mem hm
    omega
  · rw [x.queue e (by rw [hc]; exact he), hq]
    exact fun z => z.1 rfl
  · rw [x.queue y (by rw [hc]; exact hy), hq]
    exact ⟨fun z => z.2, fun z => ⟨hye, z⟩⟩
  · have := x.oppOr y ((hL y).mpr hy)
    rw [ho, hc] at this
    exact this
  · have := x.rx y ((hL y).mpr hy)
    have e1 : rx c S1 y = rx c S y := by unfold rx Lin.end; rw [hs, ho]
    rw [e1] at this
    exact this

/-- Processing a right event. -/
theorem Inv.right (g : c.Good) {S : Lin} {p : Point} (h : Inv c S p) {e : ℕ} (l : Least c S e)
    (hp : lx c S e = c.X p) (hr : ¬ isLeft e = true) :
    Inv c (S.process e) p ∧ Step c S (S.process e) e ∧ S.opp e ∈ S.sweepLine ∧
    (S.process e).opp (S.opp e) = e := by
  have he := h.qlt e l.mem
  have ho := h.wf.toLeft he
  rw [toLeft_right hr] at ho
  have oo := h.wf.oppOpp e he
  have hlr := h.wf.lr _ ho
  have hrx : rx c S (S.opp e) = lx c S e := by unfold rx lx Lin.end; rw [oo]
  have hoT : S.opp e ∈ S.sweepLine := by
    rw [h.tmem]
    refine ⟨ho, fun z => ?_, by rw [oo]; exact l.mem⟩
    have := l.le _ z
    linarith
  refine ⟨?_, ?_, hoT, ?_⟩
  all_goals
    obtain ⟨A, B, hT⟩ := List.append_of_mem hoT
    have hqok : S.queueOk = true := h.wf.queueOk h.qlt
    have hrm := h.removed g l hp hr hT S.ok
    have hs := h.toInv0.split hT
    have hch := h.chain
    rw [hT, List.isChain_append] at hch
    have hA : A.IsChain (Checked c { S with queue := S.queue.erase e, sweepLine := A ++ B, ok := S.ok }) := hch.1
    have hB : B.IsChain (Checked c { S with queue := S.queue.erase e, sweepLine := A ++ B, ok := S.ok }) :=
      hch.2.1.tail
    have key := hrm.join g rfl hA hB (S.process e) (by
      unfold Lin.process
      rw [if_neg hr]
      unfold Lin.processRight
      simp only [hqok, Bool.and_true]
      have hl : isLeft (Lin.opp { S with queue := S.queue.erase e } e) = true := isLeft_iff.mpr ho.2
      simp only [hl, Bool.and_true]
      have s1 : Split (Lin.sweepLt { S with queue := S.queue.erase e }) (S.opp e) A B := hs
      have s2 : (Lin.sweepLine { S with queue := S.queue.erase e }) = A ++ S.opp e :: B := hT
      have f := s1.find s2
      have fa := s1.above s2
      have fb := s1.below s2
      have fr := s1.remove s2
      have hoe : Lin.opp { S with queue := S.queue.erase e } e = S.opp e := rfl
      rw [hoe, f]
      simp only
      rw [fa, fb, fr]
      generalize A.getLast? = u
      generalize B.head? = v
      cases u <;> cases v <;> rfl)
  · exact key.1
  · refine step_of_ext key.2 h.qnd he l.mem rfl rfl rfl rfl (fun x hx => ?_) rfl
    left
    change x ∈ A ++ B at hx
    rw [hT]
    simp only [List.mem_append, List.mem_cons] at *
    tauto
  · have nd := h.tnd
    rw [hT] at nd
    have := key.2.keep (S.opp e) ho (List.nodup_middle.mp nd |> List.nodup_cons.mp).1
    rw [this]
    exact oo

end Rene.Sweep
