import Verif.Lemmas.Assemble.Loop
import Verif.Lemmas.Sweep.ShpPoint
import Verif.Lemmas.Sweep.Queue

/-! The selected events of the shaped engine make a plane graph. -/

namespace Rene.Sweep
open Rene Spec Face Assemble

/-- The events of the result, in order. -/
def selEvents (S : Shp) (acc : List ℕ) : List ℕ := S.sortEvents (acc.filter S.isFromResult)

theorem insertEvent_perm (S : Shp) (e : ℕ) : ∀ l : List ℕ, (S.insertEvent e l).Perm (e :: l)
  | [] => List.Perm.refl _
  | x :: l => by
    unfold Shp.insertEvent
    split
    · exact ((insertEvent_perm S e l).cons x).trans (List.Perm.swap e x l)
    · exact List.Perm.refl _

theorem sortEvents_perm (S : Shp) : ∀ l : List ℕ, (S.sortEvents l).Perm l
  | [] => List.Perm.refl _
  | x :: l => by
    unfold Shp.sortEvents
    exact (insertEvent_perm S x _).trans ((sortEvents_perm S l).cons x)

theorem insertEvent_sorted {c : Ctx} {S : Shp} (g : c.Good) (w : Wf c S.lin) {e : ℕ} (he : e < cnt S.lin) :
    ∀ l : List ℕ, (∀ x ∈ l, x < cnt S.lin) → e ∉ l → l.Pairwise (fun a b => qkey c S.lin a ≤ qkey c S.lin b) →
    (S.insertEvent e l).Pairwise (fun a b => qkey c S.lin a ≤ qkey c S.lin b)
  | [], _, _, _ => by simp [Shp.insertEvent]
  | x :: l, hl, hn, h => by
    unfold Shp.insertEvent
    rw [List.mem_cons, not_or] at hn
    have hx := hl x (by simp)
    have key := queueLt_iff g w hx he (fun q => hn.1 q.symm)
    rw [List.pairwise_cons] at h
    by_cases k : S.lin.queueLt x e = true
    · rw [if_pos k, List.pairwise_cons]
      refine ⟨fun y hy => ?_, insertEvent_sorted g w he l (fun y hy => hl y (by simp [hy])) hn.2 h.2⟩
      rcases List.mem_cons.mp ((insertEvent_perm S e l).subset hy) with rfl | hy
      · exact (key.mp k).le
      · exact h.1 y hy
    · rw [if_neg k, List.pairwise_cons]
      have hle : qkey c S.lin e ≤ qkey c S.lin x := not_lt.mp fun q => k (key.mpr q)
      refine ⟨fun y hy => ?_, List.pairwise_cons.mpr h⟩
      rcases List.mem_cons.mp hy with rfl | hy
      · exact hle
      · exact hle.trans (h.1 y hy)

theorem sortEvents_sorted {c : Ctx} {S : Shp} (g : c.Good) (w : Wf c S.lin) :
    ∀ l : List ℕ, (∀ x ∈ l, x < cnt S.lin) → l.Nodup →
    (S.sortEvents l).Pairwise (fun a b => qkey c S.lin a ≤ qkey c S.lin b)
  | [], _, _ => by simp [Shp.sortEvents]
  | x :: l, hl, hn => by
    unfold Shp.sortEvents
    rw [List.nodup_cons] at hn
    refine insertEvent_sorted g w (hl x (by simp)) _ (fun y hy => ?_) (fun hy => ?_)
      (sortEvents_sorted g w l (fun y hy => hl y (by simp [hy])) hn.2)
    · exact hl y (List.mem_cons_of_mem _ ((sortEvents_perm S l).subset hy))
    · exact hn.1 ((sortEvents_perm S l).subset hy)

section
variable {ε : ℚ} {op : ShpOp} {first second full1 full2 : List Segment} {R1 R2 : Set Point} {stop : Point → Bool}
  {S : Shp} {M : Mix} {acc : List ℕ}

theorem toLeft_isL {c : Ctx} {S : Lin} (w : Wf c S) {e : ℕ} (he : e < cnt S) : IsL S (S.toLeft e) := by
  by_cases h : isLeft e = true
  · rw [toLeft_left h]; exact ⟨he, isLeft_iff.mp h⟩
  · rw [toLeft_right h]
    refine ⟨w.oppLt e he, ?_⟩
    have := w.oppPar e he
    rw [isLeft_iff] at h
    omega

theorem isLeft_opp {c : Ctx} {S : Lin} (w : Wf c S) {e : ℕ} (he : e < cnt S) : isLeft (S.opp e) = !isLeft e := by
  have := w.oppPar e he
  unfold isLeft
  rcases Nat.mod_two_eq_zero_or_one e with a | a <;> rcases Nat.mod_two_eq_zero_or_one (S.opp e) with b | b <;>
    simp_all

theorem toLeft_opp {c : Ctx} {S : Lin} (w : Wf c S) {e : ℕ} (he : e < cnt S) : S.toLeft (S.opp e) = S.toLeft e := by
  have h := isLeft_opp w he
  by_cases k : isLeft e = true
  · rw [k] at h
    rw [toLeft_left k, toLeft_right (by rw [h]; simp), w.oppOpp e he]
  · rw [toLeft_right k]
    simp only [Bool.not_eq_true] at k
    rw [k] at h
    exact toLeft_left h

theorem isFromResult_eq (S : Shp) (e : ℕ) : S.isFromResult e = flag S.fromResult (S.lin.toLeft e) := rfl

/-- Selected pieces do not overlap. -/
theorem Fin.apart (h : Fin ε op first second full1 full2 R1 R2 stop S M acc) {x y : ℕ} (hx : IsL S.lin x)
    (hy : IsL S.lin y) (hne : x ≠ y) (sx : stop (S.lin.start x) = false) (sy : stop (S.lin.start y) = false)
    (fx : flag S.fromResult x = true) (fy : flag S.fromResult y = true)
    (hc : CollE (ctxOf first second ε) S.lin x y) {t : ℚ}
    (h1 : lx (ctxOf first second ε) S.lin x ≤ t) (h2 : t < rx (ctxOf first second ε) S.lin x)
    (h3 : lx (ctxOf first second ε) S.lin y ≤ t) (h4 : t < rx (ctxOf first second ε) S.lin y) : False := by
  set c := ctxOf first second ε with hcdef
  -- the later start
  obtain ⟨u, u1, u2, u3, u4, u5⟩ : ∃ u, lx c S.lin x ≤ u ∧ u < rx c S.lin x ∧ lx c S.lin y ≤ u ∧ u < rx c S.lin y ∧
      Within c stop u := by
    rcases le_total (lx c S.lin x) (lx c S.lin y) with q | q
    · exact ⟨lx c S.lin y, q, lt_of_le_of_lt h3 h2, le_rfl, h.wf.lr y hy, _, h.wf.memP y hy.1, sy, le_rfl⟩
    · exact ⟨lx c S.lin x, le_rfl, h.wf.lr x hx, q, lt_of_le_of_lt h1 h4, _, h.wf.memP x hx.1, sx, le_rfl⟩
  have hr := h.ret hx hy hc u5 u1 u2 u3 u4
  have kx : S.kind x ≠ .none := fun q => hne ((h.kind_none hx sx).mp q y hy hr).symm
  have ky : S.kind y ≠ .none := fun q => hne ((h.kind_none hy sy).mp q x hx hr.symm)
  have key : ∀ {x}, IsL S.lin x → stop (S.lin.start x) = false → flag S.fromResult x = true → S.kind x ≠ .none →
      opB c (S.lin.sid x) = false := by
    intro x hx sx fx kx
    have := h.sel hx sx
    rw [fx] at this
    cases hb : opB c (S.lin.sid x) with
    | false => rfl
    | true =>
      rw [hb] at this
      exfalso
      revert this
      cases op <;> simp [sdet, kx]
  have bx := key hx sx fx kx
  have by' := key hy sy fy ky
  have hsame : SameOp c S.lin x y := by
    unfold opB at bx by'
    rw [decide_eq_false_iff_not] at bx by'
    unfold SameOp
    simp [bx, by']
  rcases h.wf.noOv x y hx hy hne hsame hc with q | q <;> linarith

theorem mem_selEvents (h : Fin ε op first second full1 full2 R1 R2 stop S M acc) {e : ℕ} :
    e ∈ selEvents S acc ↔ e < cnt S.lin ∧ stop (S.lin.start e) = false ∧ S.isFromResult e = true := by
  unfold selEvents
  rw [(sortEvents_perm S _).mem_iff, List.mem_filter, h.mem_acc, and_assoc]

/-- The piece of a selected event. -/
theorem Fin.piece (h : Fin ε op first second full1 full2 R1 R2 stop S M acc)
    (cl : Close ε op first second full1 full2 stop) {e : ℕ} (he : e ∈ selEvents S acc) :
    IsL S.lin (S.lin.toLeft e) ∧ flag S.fromResult (S.lin.toLeft e) = true ∧
    stop (S.lin.start (S.lin.toLeft e)) = false ∧ stop (S.lin.end (S.lin.toLeft e)) = false := by
  obtain ⟨h1, h2, h3⟩ := (mem_selEvents h).mp he
  have hL := toLeft_isL h.wf h1
  have hs : stop (S.lin.start (S.lin.toLeft e)) = false := by
    by_cases k : isLeft e = true
    · rw [toLeft_left k]; exact h2
    · rw [toLeft_right k]
      have hL' := hL
      rw [toLeft_right k] at hL'
      refine h.two.s1.mono.false ?_ h2
      have e1 : S.lin.start e = S.lin.end (S.lin.opp e) := by
        show _ = S.lin.start (S.lin.opp (S.lin.opp e))
        rw [h.wf.oppOpp e h1]
      rw [e1]
      exact (h.good.le_iff (h.wf.memP _ hL'.1) (end_mem h.wf hL')).mpr (h.wf.lr _ hL').le
  exact ⟨hL, h3, hs, h.closed cl hL hs h3⟩

theorem opp_selEvents (h : Fin ε op first second full1 full2 R1 R2 stop S M acc)
    (cl : Close ε op first second full1 full2 stop) {e : ℕ} (he : e ∈ selEvents S acc) : S.lin.opp e ∈ selEvents S acc := by
  obtain ⟨h1, h2, h3⟩ := (mem_selEvents h).mp he
  obtain ⟨p1, p2, p3, p4⟩ := h.piece cl he
  refine (mem_selEvents h).mpr ⟨h.wf.oppLt e h1, ?_, ?_⟩
  · by_cases k : isLeft e = true
    · rw [toLeft_left k] at p4; exact p4
    · rw [toLeft_right k] at p3; exact p3
  · rw [isFromResult_eq, toLeft_opp h.wf h1]; exact p2

theorem notMem_queue (h : Fin ε op first second full1 full2 R1 R2 stop S M acc) {e : ℕ} (he : stop (S.lin.start e) = false) :
    e ∉ S.lin.queue := fun k => by rw [h.fin.queue e k] at he; cases he

/-- The height of the line of an event at zero. -/
def icept (c : Ctx) (S : Lin) (e : ℕ) : ℚ := c.C (S.sid (S.toLeft e))

theorem on_event {c : Ctx} {S : Lin} (w : Wf c S) {e : ℕ} (he : e < cnt S) : c.On (S.sid (S.toLeft e)) (S.start e) := by
  have hL := toLeft_isL w he
  by_cases k : isLeft e = true
  · have := w.onL _ hL
    rw [toLeft_left k] at this ⊢; exact this
  · have := w.onR _ hL
    rw [toLeft_right k] at this ⊢
    have e1 : S.start e = S.end (S.opp e) := by
      show _ = S.start (S.opp (S.opp e))
      rw [w.oppOpp e he]
    rw [e1]; exact this

/-- Distinct events with the same start, direction and slope. -/
theorem Fin.distinct (h : Fin ε op first second full1 full2 R1 R2 stop S M acc)
    (cl : Close ε op first second full1 full2 stop) {e e' : ℕ} (he : e ∈ selEvents S acc) (he' : e' ∈ selEvents S acc)
    (hv : lx (ctxOf first second ε) S.lin e = lx (ctxOf first second ε) S.lin e') (hl : isLeft e = isLeft e')
    (hk : slope (ctxOf first second ε) S.lin e = slope (ctxOf first second ε) S.lin e') : e = e' := by
  set c := ctxOf first second ε with hcdef
  by_contra hne
  obtain ⟨h1, _, _⟩ := (mem_selEvents h).mp he
  obtain ⟨h1', _, _⟩ := (mem_selEvents h).mp he'
  obtain ⟨p1, p2, p3, p4⟩ := h.piece cl he
  obtain ⟨q1, q2, q3, q4⟩ := h.piece cl he'
  have w := h.wf
  have es : S.lin.start e = S.lin.start e' := (h.good.eq_iff (w.memP e h1) (w.memP e' h1')).mpr hv
  have o1 := on_event w h1
  have o2 := on_event w h1'
  rw [← es] at o2
  have hcoll : CollE c S.lin (S.lin.toLeft e) (S.lin.toLeft e') := by
    refine ⟨hk, ?_⟩
    unfold Ctx.On Ctx.f at o1 o2
    have hk' : c.K (S.lin.sid (S.lin.toLeft e)) = c.K (S.lin.sid (S.lin.toLeft e')) := hk
    rw [← hk'] at o2
    linarith
  have hle : S.lin.toLeft e ≠ S.lin.toLeft e' := by
    by_cases k : isLeft e = true
    · rw [toLeft_left k, toLeft_left (by rw [← hl]; exact k)]; exact hne
    · rw [toLeft_right k, toLeft_right (by rw [← hl]; exact k)]
      intro q
      have := congrArg S.lin.opp q
      rw [w.oppOpp e h1, w.oppOpp e' h1'] at this
      exact hne this
  have l1 := w.lr _ p1
  have l2 := w.lr _ q1
  by_cases k : isLeft e = true
  · have k' : isLeft e' = true := by rw [← hl]; exact k
    rw [toLeft_left k] at p1 p2 p3 hcoll hle l1
    rw [toLeft_left k'] at q1 q2 q3 hcoll hle l2
    exact h.apart p1 q1 hle p3 q3 p2 q2 hcoll le_rfl l1 hv.symm.le (by rw [hv]; exact l2)
  · have k' : ¬ isLeft e' = true := by rw [← hl]; exact k
    rw [toLeft_right k] at p1 p2 p3 hcoll hle l1
    rw [toLeft_right k'] at q1 q2 q3 hcoll hle l2
    have r1 : rx c S.lin (S.lin.opp e) = lx c S.lin e := by
      show c.X (S.lin.start (S.lin.opp (S.lin.opp e))) = _
      rw [w.oppOpp e h1]; rfl
    have r2 : rx c S.lin (S.lin.opp e') = lx c S.lin e := by
      show c.X (S.lin.start (S.lin.opp (S.lin.opp e'))) = _
      rw [w.oppOpp e' h1', hv]; rfl
    refine h.apart p1 q1 hle p3 q3 p2 q2 hcoll
      (t := max (lx c S.lin (S.lin.opp e)) (lx c S.lin (S.lin.opp e'))) (le_max_left _ _) ?_ (le_max_right _ _) ?_
    · rw [r1] at l1 ⊢
      rw [r2] at l2
      exact max_lt l1 l2
    · rw [r2] at l2 ⊢
      rw [r1] at l1
      exact max_lt l1 l2

/-- The selected events are as the assembly expects them. -/
theorem Fin.evs (h : Fin ε op first second full1 full2 R1 R2 stop S M acc)
    (cl : Close ε op first second full1 full2 stop) :
    Evs S (selEvents S acc) (lx (ctxOf first second ε) S.lin) (slope (ctxOf first second ε) S.lin) := by
  have w := h.wf
  have lt : ∀ e ∈ selEvents S acc, e < cnt S.lin := fun e he => ((mem_selEvents h).mp he).1
  have un : ∀ e ∈ selEvents S acc, stop (S.lin.start e) = false := fun e he => ((mem_selEvents h).mp he).2.1
  have nd : (selEvents S acc).Nodup := by
    unfold selEvents
    rw [(sortEvents_perm S _).nodup_iff]
    exact h.h1.nd.filter _
  obtain ⟨p, hinv⟩ := h.fin.inv
  refine ⟨nd, lt, fun e he => opp_selEvents h cl he, fun e he => w.oppOpp e (lt e he), fun e he => isLeft_opp w (lt e he),
    fun e he e' he' => h.good.eq_iff (w.memP e (lt e he)) (w.memP e' (lt e' he')), fun e he => ?_, fun e he e' he' => ?_, ?_⟩
  · obtain ⟨i, i1, i2, _⟩ := hinv.ids.id e (lt e he) (notMem_queue h (un e he))
    exact ⟨i, i1, i2⟩
  · exact hinv.ids.eq e (lt e he) e' (lt e' he') (notMem_queue h (un e he)) (notMem_queue h (un e' he'))
  · have hs := sortEvents_sorted (S := S) h.good w (acc.filter S.isFromResult) (fun x hx => by
      rw [List.mem_filter, h.mem_acc] at hx; exact hx.1.1) (h.h1.nd.filter _)
    have hs' := (hs.and (show (selEvents S acc).Pairwise (· ≠ ·) from nd))
    refine hs'.imp_of_mem (fun {a b} ha hb hab => ?_)
    obtain ⟨hle, hne⟩ := hab
    have ha' : a ∈ selEvents S acc := ha
    have hb' : b ∈ selEvents S acc := hb
    have dist := h.distinct cl ha' hb'
    unfold qkey at hle
    rw [Prod.Lex.toLex_le_toLex, Prod.Lex.toLex_le_toLex, Prod.Lex.toLex_le_toLex] at hle
    rcases hle with q | ⟨q1, q⟩
    · exact Or.inl q
    · right
      refine ⟨q1, ?_⟩
      simp only at q q1
      cases la : isLeft a <;> cases lb : isLeft b <;> simp only [la, lb] at q
      · simp only [Bool.false_eq_true, if_false] at q
        right; left
        refine ⟨rfl, rfl, ?_⟩
        rcases q with q | ⟨_, q | ⟨q, _⟩⟩
        · omega
        · linarith
        · exact absurd (dist q1 (la.trans lb.symm) (by linarith)) hne
      · exact Or.inl ⟨rfl, rfl⟩
      · simp at q
      · simp only [if_true] at q
        right; right
        refine ⟨rfl, rfl, ?_⟩
        rcases q with q | ⟨_, q | ⟨q, _⟩⟩
        · omega
        · exact q
        · exact absurd (dist q1 (la.trans lb.symm) q) hne

end

end Rene.Sweep
