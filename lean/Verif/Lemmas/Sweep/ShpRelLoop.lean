import Verif.Lemmas.Sweep.ShpUpdate

/-! # The loop of the relation of two shapes -/

namespace Rene.Sweep
open Rene.Face Finset Spec

variable {c : Ctx} {inte : ℕ → Bool} {q : Bool → ℕ → ℚ → Bool} {S : Shp} {M : Mix} {p : Point} {group : List ℕ} {e : ℕ}

/-- There is a segment of the kind in the operand. -/
def Ev (c : Ctx) (inte : ℕ → Bool) (o : Bool) (k : EventKind) : Prop :=
  ∃ i < c.N, opB c i = o ∧ ∃ t, Spans c i t ∧ Kls c inte t i k

/-- The boundaries meet. -/
def Meet (c : Ctx) : Prop := ∃ z, ∀ b, InOp c b z

/-- The state of the relation when the segments not after `u` have been seen. -/
structure SSt (c : Ctx) (inte : ℕ → Bool) (u : ℚ) (s0 st : ShapedState) : Prop where
  le : Le s0 st
  snd : Snd (Ev c inte) (Meet c) s0 st
  acc : Broken st ∨ ((∀ i < c.N, ∀ t ≤ u, Spans c i t → ∀ k, Kls c inte t i k → SAcc st (opB c i) k) ∧
    ∀ z ∈ c.P, c.X z ≤ u → (∀ b, InOp c b z) → st.boundariesIntersect = true)

/-- The segments of the events of the group. -/
theorem Run.event (D : Duo c inte q) (h : Run c inte q S M p) (d : Done c S.lin p group) {x : ℕ} (hx : x ∈ group) :
    ∃ i < c.N, opB c i = S.lin.isFirst x ∧ c.On i p ∧ ∃ t, Spans c i t ∧ (t = c.X p ∨ Gap c t p) ∧
      Kls c inte t i (S.classify x) := by
  have w := d.inv.wf
  obtain ⟨k1, k2, k3⟩ := (d.mem x).mp hx
  have hL := w.toLeft k1
  have ho : opB c (S.lin.sid (S.lin.toLeft x)) = S.lin.isFirst x := by
    have := (isFirst_eq w (x := x) (b := S.lin.isFirst x)).mp rfl
    exact this
  refine ⟨_, w.sidLt _ hL, ho, ?_⟩
  by_cases hl : isLeft x = true
  · rw [toLeft_left hl] at hL ⊢
    have on := w.onL x hL
    rw [k3] at on
    have e1 : lx c S.lin x = c.X p := by unfold lx; rw [k3]
    have lr := w.lr x hL
    rw [e1] at lr
    exact ⟨on, c.X p, w.spans hL e1.le lr, Or.inl rfl, h.kls D d hL e1.le lr le_rfl⟩
  · rw [toLeft_right hl] at hL ⊢
    have on := w.onR _ hL
    have e0 : S.lin.end (S.lin.opp x) = p := by unfold Lin.end; rw [w.oppOpp x k1]; exact k3
    rw [e0] at on
    have e1 : rx c S.lin (S.lin.opp x) = c.X p := by unfold rx; rw [e0]
    obtain ⟨t, ht⟩ := exists_gap c d.inv.pP
    have lr := w.lr _ hL
    have a : lx c S.lin (S.lin.opp x) ≤ t := ht.no _ (w.memP _ hL.1) (by rw [← e1]; exact lr)
    have b : t < rx c S.lin (S.lin.opp x) := by rw [e1]; exact ht.lt
    refine ⟨on, t, w.spans hL a b, Or.inr ht, ?_⟩
    have hc : S.classify x = S.classify (S.lin.opp x) := by
      unfold Shp.classify
      rw [toLeft_right hl, toLeft_left (isLeft_iff.mpr hL.2)]
    rw [hc]
    exact h.kls D d hL a b ht.lt.le

theorem allSame_pair {l : List Bool} : allSame l = true ↔ ∀ x ∈ l, ∀ y ∈ l, x = y := by
  cases l with
  | nil => simp [allSame]
  | cons a l =>
    unfold allSame
    rw [List.all_eq_true]
    constructor
    · intro h x hx y hy
      have key : ∀ x ∈ a :: l, x = a := by
        intro x hx
        rcases List.mem_cons.mp hx with rfl | hx
        · rfl
        · have := h x hx; simpa using this
      rw [key x hx, key y hy]
    · intro h x hx
      have := h x (by simp [hx]) a (by simp)
      simpa using this

/-- The update at a point. -/
theorem update_spec (D : Duo c inte q) {s0 st : ShapedState} (h : Run c inte q S M p) (d : Done c S.lin p group)
    (hs : Snd (Ev c inte) (Meet c) s0 st) :
    Le st (st.update S group) ∧ Snd (Ev c inte) (Meet c) s0 (st.update S group) ∧
      (Broken (st.update S group) ∨ ((∀ x ∈ group, SAcc (st.update S group) (S.lin.isFirst x) (S.classify x)) ∧
        ((∀ b, InOp c b p) → (st.update S group).boundariesIntersect = true))) := by
  have hE : ∀ x ∈ group, Ev c inte (S.lin.isFirst x) (S.classify x) := by
    intro x hx
    obtain ⟨i, hi, ho, -, t, si, -, k⟩ := h.event D d hx
    exact ⟨i, hi, ho, t, si, k⟩
  unfold ShapedState.update
  by_cases ha : allSame (group.map S.lin.isFirst) = true
  · rw [if_pos ha]
    have ha := allSame_pair.mp ha
    obtain ⟨x, rest, hg⟩ := List.exists_cons_of_ne_nil d.ne
    have hx : x ∈ group := by rw [hg]; simp
    have same : ∀ y ∈ group, S.lin.isFirst y = S.lin.isFirst x := fun y hy =>
      ha _ (List.mem_map_of_mem hy) _ (List.mem_map_of_mem hx)
    have hno : ¬ InOp c (!S.lin.isFirst x) p := by
      rw [d.inOp_iff D.g]
      rintro ⟨y, hy, k⟩
      rw [same y hy] at k
      revert k; cases S.lin.isFirst x <;> simp
    have kd : ∀ y ∈ group, S.classify y = if dpar c (!S.lin.isFirst x) p then .inside else .outside := by
      intro y hy
      obtain ⟨i, hi, ho, on, t, si, ht, k⟩ := h.event D d hy
      rw [same y hy] at ho
      exact k.unique D.g hi si (kind_at D.g hi ho on hno si ht)
    have hkx := kd x hx
    have hEx := hE x hx
    have all : ∀ st' : ShapedState, SAcc st' (S.lin.isFirst x) (S.classify x) →
        ∀ y ∈ group, SAcc st' (S.lin.isFirst y) (S.classify y) := by
      intro st' k y hy
      rw [same y hy, kd y hy, ← hkx]; exact k
    have bi : ∀ st' : ShapedState, (∀ b, InOp c b p) → st'.boundariesIntersect = true := fun _ k => absurd (k _) hno
    rw [hg]
    simp only
    rw [← hg]
    by_cases hv : dpar c (!S.lin.isFirst x) p = true
    · rw [if_pos hv] at hkx
      rw [hkx] at hEx ⊢
      rw [hkx] at all
      obtain ⟨k1, k2, k3⟩ := inside_spec (Ev := Ev c inte) (B := Meet c) (s0 := s0) (st := st) (o := S.lin.isFirst x)
      exact ⟨k1, k3 hEx hs, Or.inr ⟨all _ k2, bi _⟩⟩
    · rw [if_neg hv] at hkx
      rw [hkx] at hEx ⊢
      rw [hkx] at all
      obtain ⟨k1, k2, k3⟩ := outside_spec (Ev := Ev c inte) (B := Meet c) (s0 := s0) (st := st) (o := S.lin.isFirst x)
        (Or.inl rfl)
      exact ⟨k1, k3 hEx hs, Or.inr ⟨all _ k2, bi _⟩⟩
  · rw [if_neg ha]
    have hm : ∀ b, InOp c b p := by
      intro b
      rw [d.inOp_iff D.g]
      by_contra hn
      refine ha (allSame_pair.mpr fun u hu v hv => ?_)
      obtain ⟨x, hx, rfl⟩ := List.mem_map.mp hu
      obtain ⟨y, hy, rfl⟩ := List.mem_map.mp hv
      have k1 : S.lin.isFirst x ≠ b := fun z => hn ⟨x, hx, z⟩
      have k2 : S.lin.isFirst y ≠ b := fun z => hn ⟨y, hy, z⟩
      rw [Bool.eq_not_of_ne k1, Bool.eq_not_of_ne k2]
    by_cases hc : S.hasEdgesCross none none group = true
    · rw [if_pos hc]
      obtain ⟨o, o1, o2⟩ := hasEdgesCross_spec S (Ev c inte) group none none hE (by simp) (by simp) hc
      have hsub : ∀ b, sSub { st with hasContinuousIntersection := true, firstIsSubset := false, secondIsSubset := false } b =
          false := fun b => by cases b <;> rfl
      refine ⟨⟨fun _ => rfl, fun b _ => hsub b, fun b k => k, fun k => k, fun k => k⟩, ⟨fun b _ => Or.inr ?_, fun _ =>
        ⟨o, _, o1, Or.inl rfl⟩, hs.bd, hs.bi, hs.ok⟩, Or.inl ⟨rfl, hsub⟩⟩
      by_cases w : b = o
      · subst w; exact ⟨b, _, o2, Or.inl ⟨rfl, Or.inl rfl⟩⟩
      · exact ⟨o, _, o1, Or.inr ⟨by rw [Bool.eq_not_of_ne w, Bool.not_not], rfl⟩⟩
    · rw [if_neg hc]
      obtain ⟨k1, k2, k3⟩ := sfold_spec (Ev := Ev c inte) (B := Meet c) (s0 := s0) S group
        { st with boundariesIntersect := true }
      have l0 : Le st { st with boundariesIntersect := true } :=
        ⟨fun k => k, fun _ k => k, fun _ k => k, fun _ => rfl, fun k => k⟩
      refine ⟨l0.trans k1, k3 hE ⟨hs.sub, hs.cont, hs.bd, fun _ => ⟨p, hm⟩, hs.ok⟩, Or.inr ⟨k2, fun _ => k1.bi rfl⟩⟩

theorem SSt.update (D : Duo c inte q) {s0 st : ShapedState} {u : ℚ} (h : Run c inte q S M p) (d : Done c S.lin p group)
    (hu : Gap c u p) (r : SSt c inte u s0 st) : SSt c inte (c.X p) s0 (st.update S group) := by
  obtain ⟨k1, k2, k3⟩ := update_spec D h d r.snd
  refine ⟨r.le.trans k1, k2, ?_⟩
  rcases r.acc with r | ⟨r1, r2⟩
  · exact Or.inl (r.le k1)
  rcases k3 with k3 | ⟨k3, k4⟩
  · exact Or.inl k3
  right
  have w := d.inv.wf
  refine ⟨fun i hi t ht si k hk => ?_, fun z hz hzp hm => ?_⟩
  · obtain ⟨x, hx, rfl, h1, h2⟩ := w.piece hi si
    have e1 := h.kls D d hx h1 h2 ht
    rw [hk.unique D.g hi si e1]
    have lr := w.lr x hx
    by_cases hlt : lx c S.lin x < c.X p
    · have e2 := h.kls D d hx le_rfl lr hlt.le
      have := hu.no _ (w.memP x hx.1) hlt
      exact (r1 _ hi _ this (w.spans hx le_rfl lr) _ e2).le k1
    · have e3 : lx c S.lin x = c.X p := le_antisymm (h1.trans ht) (not_lt.mp hlt)
      have hst : S.lin.start x = p := (D.g.eq_iff (w.memP x hx.1) d.inv.pP).mpr e3
      have := k3 x (d.mem' hx.1 hst)
      have ho : opB c (S.lin.sid x) = S.lin.isFirst x := by
        have := (isFirst_eq w (x := x) (b := S.lin.isFirst x)).mp rfl
        rw [toLeft_left (isLeft_iff.mpr hx.2)] at this
        exact this
      rw [ho]; exact this
  · rcases eq_or_lt_of_le hzp with k | k
    · have : z = p := (D.g.eq_iff hz d.inv.pP).mpr k
      subst this
      exact k4 hm
    · exact k1.bi (r2 z hz (hu.no z hz k) hm)

/-- What the final state says. -/
structure SFin (c : Ctx) (inte : ℕ → Bool) (s0 st : ShapedState) : Prop where
  le : Le s0 st
  snd : Snd (Ev c inte) (Meet c) s0 st
  acc : Broken st ∨ ((∀ i < c.N, ∀ t, Spans c i t → ∀ k, Kls c inte t i k → SAcc st (opB c i) k) ∧
    ∀ z ∈ c.P, (∀ b, InOp c b z) → st.boundariesIntersect = true)

/-- The loop of `to_relation`: one operand (`b0`) is not beyond the limit. -/
theorem srelateLoop_spec (D : Duo c inte q) {m : ℚ} {b0 : Bool} {s0 : ShapedState}
    (hm : ∀ z, InOp c b0 z → z.x ≤ m) :
    ∀ (fuel : ℕ) (S : Shp) (M : Mix) (st : ShapedState) (p : Point) (u : ℚ) (group : List ℕ), Run c inte q S M p →
    GInv c S.lin p group → group ≠ [] → Gap c u p → SSt c inte u s0 st → meas c S.lin < fuel →
    SFin c inte s0 (S.relateLoop m fuel st p group).2 ∧ (S.relateLoop m fuel st p group).1.lin.ok = S.lin.ok := by
  intro fuel
  induction fuel with
  | zero => intro S M st p u group _ _ _ _ _ hf; omega
  | succ fuel ih =>
    intro S M st p u group R h hne hu r hf
    have g := D.g
    unfold Shp.relateLoop
    cases hpop : S.lin.popEvent with
    | none =>
      have hq := popEvent_none hpop
      have d : Done c S.lin p group := ⟨h, by rw [hq]; simp, hne⟩
      simp only
      have r' := r.update D R d hu
      refine ⟨⟨r'.le, r'.snd, r'.acc.imp id fun ⟨a1, a2⟩ => ⟨fun i hi t si k hk => ?_, fun z hz hb => a2 z hz (d.last g hq hz) hb⟩⟩, trivial⟩
      exact a1 i hi t (si.2.le.trans (d.last g hq (g.memB i hi))) si k hk
    | some e =>
      simp only
      have w := h.inv.wf
      have l := least_of_pop g w h.inv.qlt hpop
      have he := h.inv.qlt e l.mem
      have hqok : S.lin.queueOk = true := w.queueOk h.inv.qlt
      obtain ⟨M', R', hlin⟩ := R.step D hpop
      by_cases hp : S.lin.start e = p
      · rw [if_pos hp]
        obtain ⟨h1, s⟩ := h.step g hpop hp
        have := s.meas
        rw [← hlin] at h1 s this
        rw [hp] at R'
        obtain ⟨i1, i2⟩ := ih _ M' st p u (group ++ [e]) R' h1 (by simp) hu r (by omega)
        exact ⟨i1, i2.trans s.ok⟩
      · rw [if_neg hp]
        have hle := h.inv.qge e l.mem
        have hlt : c.X p < lx c S.lin e := by
          refine lt_of_le_of_ne hle fun z => hp ?_
          exact ((g.eq_iff h.inv.pP (w.memP e he)).mpr z).symm
        have d : Done c S.lin p group := ⟨h, fun y hy => lt_of_lt_of_le hlt (l.le y hy), hne⟩
        have r' := r.update D R d hu
        by_cases hb : ((st.update S group).hasContinuousIntersection && !(st.update S group).firstIsSubset &&
            !(st.update S group).secondIsSubset) = true
        · rw [if_pos hb]
          simp only [Bool.and_eq_true, Bool.not_eq_true'] at hb
          obtain ⟨⟨b1, b2⟩, b3⟩ := hb
          exact ⟨⟨r'.le, r'.snd, Or.inl ⟨b1, fun b => by cases b; exact b3; exact b2⟩⟩, by simp [hqok]⟩
        · rw [if_neg hb]
          by_cases hx : (S.lin.start e).x > m
          · rw [if_pos hx]
            -- the operand of the event
            have hL := w.toLeft he
            have hs : opB c (S.lin.sid (S.lin.toLeft e)) = S.lin.isFirst e :=
              (isFirst_eq w (x := e) (b := S.lin.isFirst e)).mp rfl
            have hon : InOp c (S.lin.isFirst e) (S.lin.start e) := by
              refine ⟨_, w.sidLt _ hL, hs, ?_⟩
              have ia := w.inA _ hL
              have ib := w.inB _ hL
              have lr := w.lr _ hL
              by_cases hl : isLeft e = true
              · rw [toLeft_left hl] at *
                have e1 : lx c S.lin e = c.X (S.lin.start e) := rfl
                exact ⟨w.onL e hL, by linarith, by linarith⟩
              · rw [toLeft_right hl] at *
                have := w.onR _ hL
                have e0 : S.lin.end (S.lin.opp e) = S.lin.start e := by unfold Lin.end; rw [w.oppOpp e he]
                rw [e0] at this
                have e1 : rx c S.lin (S.lin.opp e) = c.X (S.lin.start e) := by unfold rx; rw [e0]
                exact ⟨this, by linarith, by linarith⟩
            have hb0 : S.lin.isFirst e = !b0 := by
              by_contra z
              have z' : S.lin.isFirst e = b0 := by
                have := Bool.eq_not_of_ne z
                rwa [Bool.not_not] at this
              rw [z'] at hon
              exact absurd hx (not_lt.mpr (hm _ hon))
            have hepP := w.memP e he
            have inSelf : ∀ {z b}, InOp c b z → z ∈ c.P → z.x ≤ m → c.X z ≤ c.X p := by
              intro z b _ hz hzm
              rw [← d.between g hpop hz, ← g.lt_iff hz hepP]
              exact Point.lt_iff.mpr (Or.inl (lt_of_le_of_lt hzm hx))
            have endB : ∀ i < c.N, opB c i = b0 → c.X (c.B i) ≤ c.X p := by
              intro i hi hb
              have : InOp c b0 (c.B i) := ⟨i, hi, hb, g.onB i hi, (g.lt i hi).le, le_rfl⟩
              exact inSelf this (g.memB i hi) (hm _ this)
            obtain ⟨o1, o2, o3⟩ := outside_spec (Ev := Ev c inte) (B := Meet c) (s0 := s0) (st := st.update S group)
              (o := S.lin.isFirst e) (Or.inl rfl)
            -- segments after the limit
            have late : ∀ i < c.N, ∀ t, Spans c i t → opB c i = !b0 →
                (∀ j < c.N, opB c j = b0 → ¬ Spans c j t) → Kls c inte t i .outside := by
              intro i hi t si ho hno
              refine ⟨fun j tw => ?_, ?_⟩
              · have := tw.op g hi si
                rw [ho, Bool.not_not] at this
                exact hno j tw.1 this tw.2.1
              · refine bool_false fun k => ?_
                obtain ⟨j, hj, oj⟩ := par_mem k
                rw [ho, Bool.not_not] at oj
                obtain ⟨j1, j2, -⟩ := mem_low.mp hj
                exact hno j j1 oj j2
            have hno : ∀ t, c.X p < t → ∀ j < c.N, opB c j = b0 → ¬ Spans c j t := by
              intro t ht j hj oj sj
              have := endB j hj oj
              have := sj.2
              linarith
            -- the segment of the event
            have hev : Ev c inte (S.lin.isFirst e) .outside := by
              obtain ⟨i, hi, ho, t, si, k⟩ := kind_of_point (inte := inte) g hon (by
                rw [hb0, Bool.not_not]
                exact fun z => absurd hx (not_lt.mpr (hm _ z)))
              refine ⟨i, hi, ho, t, si, ?_⟩
              have : dpar c (!S.lin.isFirst e) (S.lin.start e) = false := by
                refine bool_false fun k => ?_
                obtain ⟨j, hj, oj⟩ := par_mem k
                rw [hb0, Bool.not_not] at oj
                obtain ⟨j1, j2, -⟩ := mem_lowE.mp hj
                exact hno _ hlt j j1 oj j2
              rw [this, if_neg (by decide)] at k
              exact k
            refine ⟨⟨r'.le.trans o1, o3 hev r'.snd, r'.acc.imp (fun k => k.le o1) fun ⟨a1, a2⟩ => ⟨fun i hi t si k hk => ?_, fun z hz hb => ?_⟩⟩,
              by simp [hqok]⟩
            · by_cases ht : t ≤ c.X p
              · exact (a1 i hi t ht si k hk).le o1
              · have ht := not_le.mp ht
                by_cases ho : opB c i = b0
                · exact absurd si (hno t ht i hi ho)
                · have ho := Bool.eq_not_of_ne ho
                  have := late i hi t si ho (hno t ht)
                  rw [hk.unique g hi si this, ho, ← hb0]
                  exact o2
            · exact o1.bi (a2 z hz (inSelf (hb b0) hz (hm _ (hb b0))) hb)
          · rw [if_neg hx]
            obtain ⟨h1, -⟩ := h.inv.step g hpop
            have gn : GInv c S.lin (S.lin.start e) [] := by
              refine GInv.new h1 fun x hx hxq => ?_
              have := h.inv.ple x hx hxq
              have e0 : lx c S.lin e = c.X (S.lin.start e) := rfl
              linarith
            obtain ⟨h2, s⟩ := gn.step g hpop rfl
            have := s.meas
            rw [← hlin] at h2 s this
            have hg : Gap c (c.X p) (S.lin.start e) :=
              ⟨w.memP e he, hlt, fun z hz k => (d.between g hpop hz).mp k⟩
            obtain ⟨i1, i2⟩ := ih _ M' (st.update S group) (S.lin.start e) (c.X p) [e] R' h2 (by simp) hg r' (by omega)
            exact ⟨i1, i2.trans s.ok⟩

end Rene.Sweep
