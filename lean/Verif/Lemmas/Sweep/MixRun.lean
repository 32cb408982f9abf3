import Verif.Lemmas.Sweep.MixResult

/-! What a run of a mixed operation returns. -/

namespace Rene.Sweep
open Rene Spec

section
variable {ε : ℚ} {first second lin kept full : List Segment} {R : Set Point} {T : Bool} {stop : Point → Bool}
  {op : MixOp} {wanted : ℕ → Bool} {M : Mix} {acc : List ℕ} {k : Bool}

theorem coll_of_two {c : Ctx} {i j : ℕ} {a b : Point} (h1 : c.On i a) (h2 : c.On i b) (h3 : c.On j a) (h4 : c.On j b)
    (h : c.X a ≠ c.X b) : c.Coll i j := by
  unfold Ctx.On Ctx.f at h1 h2 h3 h4
  have hK : c.K i = c.K j := by
    have : (c.K i - c.K j) * (c.X a - c.X b) = 0 := by linear_combination h3 - h1 - h4 + h2
    rcases mul_eq_zero.mp this with z | z
    · exact sub_eq_zero.mp z
    · exact absurd (sub_eq_zero.mp z) h
  refine ⟨hK, ?_⟩
  rw [hK] at h1
  linarith

/-- When no chosen piece leads out of the range. -/
def Stops (ε : ℚ) (lin kept full : List Segment) (stop : Point → Bool) (k : Bool) : Prop :=
  (∀ s ∈ lin, stop (hi s) = false) ∨
    (k = true ∧ ∀ s ∈ full, (s ∈ kept ∧ stop (hi s) = false) ∨ ∀ t ∈ lin, Xe ε (hi s) ≤ Xe ε (lo t))

/-- The chosen left events. -/
def picked (M : Mix) (acc : List ℕ) : List ℕ := acc.filter fun x => isLeft x && M.isFromResult x

/-- Their pieces. -/
def pieces (M : Mix) (acc : List ℕ) : List Segment := (picked M acc).map fun x => ⟨M.lin.start x, M.lin.end x⟩

theorem fromResult_left {x : ℕ} (h : x % 2 = 0) : M.isFromResult x = flag M.fromResult x := by
  unfold Mix.isFromResult flag
  rw [toLeft_left (isLeft_iff.mpr h)]

theorem Setting.chosen (h : MFinal (ctxOf first second ε) op T (qAt ε first second full T)
      (okAt ε first second lin stop) stop wanted M acc)
    (hop : ∀ f o v, det op f o v = ((f == T) && (k == (o || v)))) {x : ℕ} (hx : IsL M.lin x)
    (hst : stop (M.lin.start x) = false) :
    flag M.fromResult x = true ↔ opB (ctxOf first second ε) (M.lin.sid x) = T ∧
      (flag M.other x || flag M.overlap x) = k := by
  rw [h.fr x hx hst, hop, Bool.and_eq_true, beq_iff_eq, beq_iff_eq]
  have e : M.lin.leftFirst x = opB (ctxOf first second ε) (M.lin.sid x) := by
    unfold Lin.leftFirst opB
    rw [h.wf.fc]
  rw [e]
  exact and_congr_right fun _ => eq_comm

theorem Setting.chosen_end (S : Setting ε first second lin kept full R T stop)
    (h : MFinal (ctxOf first second ε) op T (qAt ε first second full T) (okAt ε first second lin stop) stop wanted M acc)
    (he : Stops ε lin kept full stop k) {x : ℕ} (hx : IsL M.lin x)
    (hst : stop (M.lin.start x) = false) (hT : opB (ctxOf first second ε) (M.lin.sid x) = T)
    (hk : (flag M.other x || flag M.overlap x) = k) : stop (M.lin.end x) = false := by
  rcases he with he | ⟨rfl, he⟩
  · have := he _ (S.opT (h.wf.sidLt x hx) hT)
    exact S.mono.false ((S.good.le_iff (end_mem h.wf hx) (S.good.memB _ (h.wf.sidLt x hx))).mpr (h.wf.inB x hx)) this
  · by_contra z
    have := S.outer h he hx hT hst (by simpa using z)
    rw [this] at hk; cases hk

theorem Setting.mem_picked (S : Setting ε first second lin kept full R T stop)
    (h : MFinal (ctxOf first second ε) op T (qAt ε first second full T) (okAt ε first second lin stop) stop wanted M acc)
    (hop : ∀ f o v, det op f o v = ((f == T) && (k == (o || v)))) (he : Stops ε lin kept full stop k)
    (hw : ∀ x, isLeft x = true → wanted x = true) (x : ℕ) :
    x ∈ picked M acc ↔ IsL M.lin x ∧ stop (M.lin.start x) = false ∧ stop (M.lin.end x) = false ∧
      opB (ctxOf first second ε) (M.lin.sid x) = T ∧ (flag M.other x || flag M.overlap x) = k := by
  unfold picked
  rw [List.mem_filter, h.mem, Bool.and_eq_true, isLeft_iff]
  constructor
  · rintro ⟨⟨a, b, c⟩, d, e⟩
    rw [fromResult_left d] at e
    obtain ⟨t1, t2⟩ := (Setting.chosen h hop ⟨a, d⟩ c).mp e
    exact ⟨⟨a, d⟩, c, S.chosen_end h he ⟨a, d⟩ c t1 t2, t1, t2⟩
  · rintro ⟨hx, c, _, t1, t2⟩
    refine ⟨⟨hx.1, hw x (isLeft_iff.mpr hx.2), c⟩, hx.2, ?_⟩
    rw [fromResult_left hx.2]
    exact (Setting.chosen h hop hx c).mpr ⟨t1, t2⟩

theorem Setting.pieces_noded (S : Setting ε first second lin kept full R T stop)
    (h : MFinal (ctxOf first second ε) op T (qAt ε first second full T) (okAt ε first second lin stop) stop wanted M acc)
    (hop : ∀ f o v, det op f o v = ((f == T) && (k == (o || v)))) (he : Stops ε lin kept full stop k)
    (hw : ∀ x, isLeft x = true → wanted x = true) : FullyNoded (pieces M acc) := by
  have w := h.wf
  have g := S.good
  have hs := S.mono
  have memP := S.mem_picked h hop he hw
  set c := ctxOf first second ε with hc
  unfold pieces
  constructor
  · intro s hs
    obtain ⟨x, hx, rfl⟩ := List.mem_map.mp hs
    exact (start_le_end g w ((memP x).mp hx).1).ne
  · rw [List.pairwise_map]
    have nd : (picked M acc).Nodup := h.nd.filter _
    refine List.Pairwise.imp_of_mem ?_ nd
    intro x y hx hy hne
    obtain ⟨xL, x1, x2, x3, _⟩ := (memP x).mp hx
    obtain ⟨yL, y1, y2, y3, _⟩ := (memP y).mp hy
    have so : SameOp c M.lin x y := by
      unfold SameOp
      rw [← x3] at y3
      unfold opB at y3
      exact (decide_eq_decide.mp y3).symm
    have key : ∀ q, At c M.lin x q → At c M.lin y q → q ∈ c.P := by
      intro q ax ay
      by_contra hq
      have ix := at_int w xL hq ax
      have iy := at_int w yL hq ay
      rcases w.noOv x y xL yL hne so (at_coll g w xL yL hq ax ay) with z | z
      · have := ix.2; have := iy.1; linarith
      · have := ix.1; have := iy.2; linarith
    have ends : ∀ {x}, IsL M.lin x → stop (M.lin.end x) = false → ∀ q ∈ c.P, At c M.lin x q →
        q = M.lin.start x ∨ q = M.lin.end x := by
      intro x hx hst q hq ax
      have : stop q = false := hs.false ((g.le_iff hq (end_mem w hx)).mpr ax.2.2) hst
      have := h.noInt q hq this x hx ax.1
      unfold Int at this
      rcases eq_or_lt_of_le ax.2.1 with k | k
      · exact Or.inl ((g.eq_iff hq (w.memP x hx.1)).mpr k.symm)
      · rcases eq_or_lt_of_le ax.2.2 with k' | k'
        · exact Or.inr ((g.eq_iff hq (end_mem w hx)).mpr k')
        · exact absurd ⟨k, k'⟩ this
    have main : ∀ q, q ∈ seg (M.lin.start x) (M.lin.end x) → q ∈ seg (M.lin.start y) (M.lin.end y) →
        (q = M.lin.start x ∨ q = M.lin.end x) ∧ (q = M.lin.start y ∨ q = M.lin.end y) := by
      intro q hqx hqy
      have ax := (mem_piece w xL q).mp hqx
      have ay := (mem_piece w yL q).mp hqy
      have hq := key q ax ay
      exact ⟨ends xL x2 q hq ax, ends yL y2 q hq ay⟩
    refine ⟨?_, main⟩
    rintro p ⟨p1, p2⟩ q ⟨q1, q2⟩
    by_contra hpq
    have lx' := start_le_end g w xL
    have ly' := start_le_end g w yL
    obtain ⟨a1, a2⟩ := main p p1 p2
    obtain ⟨b1, b2⟩ := main q q1 q2
    have fin : M.lin.start x = M.lin.start y → M.lin.end x = M.lin.end y → False := by
      intro e1 e2
      have hcoll : CollE c M.lin x y := by
        refine coll_of_two (w.onL x xL) (w.onR x xL) ?_ ?_ (w.lr x xL).ne
        · rw [e1]; exact w.onL y yL
        · rw [e2]; exact w.onR y yL
      have l1 := w.lr x xL
      have e3 : lx c M.lin x = lx c M.lin y := by show c.X _ = c.X _; rw [e1]
      have e4 : rx c M.lin x = rx c M.lin y := by show c.X (M.lin.end x) = c.X (M.lin.end y); rw [e2]
      rcases w.noOv x y xL yL hne so hcoll with z | z <;> linarith
    rcases a1 with rfl | rfl <;> rcases b1 with rfl | rfl
    · exact absurd rfl hpq
    · rcases a2 with e | e <;> rcases b2 with e' | e'
      · exact absurd (e.trans e'.symm) hpq
      · exact fin e e'
      · rw [e, e'] at lx'; exact absurd lx' ly'.asymm
      · exact absurd (e.trans e'.symm) hpq
    · rcases a2 with e | e <;> rcases b2 with e' | e'
      · exact absurd (e.trans e'.symm) hpq
      · rw [e, e'] at lx'; exact absurd lx' ly'.asymm
      · exact fin e' e
      · exact absurd (e.trans e'.symm) hpq
    · exact absurd rfl hpq

/-- The pieces are parts of the linear components. -/
theorem Setting.pieces_piece (S : Setting ε first second lin kept full R T stop)
    (h : MFinal (ctxOf first second ε) op T (qAt ε first second full T) (okAt ε first second lin stop) stop wanted M acc)
    (hop : ∀ f o v, det op f o v = ((f == T) && (k == (o || v)))) (he : Stops ε lin kept full stop k)
    (hw : ∀ x, isLeft x = true → wanted x = true) {r : Segment} (hr : r ∈ pieces M acc) :
    ∃ t ∈ lin, segPts r ⊆ segPts t := by
  have w := h.wf
  obtain ⟨x, hx, rfl⟩ := List.mem_map.mp hr
  obtain ⟨xL, x1, x2, x3, x4⟩ := (S.mem_picked h hop he hw x).mp hx
  refine ⟨_, S.opT (w.sidLt x xL) x3, fun q hq => ?_⟩
  have ax := (mem_piece w xL q).mp hq
  rw [mem_segAt_iff S.good (w.sidLt x xL)]
  exact ⟨ax.1, (w.inA x xL).trans ax.2.1, ax.2.2.trans (w.inB x xL)⟩

/-- Points of the pieces. -/
theorem Setting.pieces_sub (S : Setting ε first second lin kept full R T stop)
    (h : MFinal (ctxOf first second ε) op T (qAt ε first second full T) (okAt ε first second lin stop) stop wanted M acc)
    (hop : ∀ f o v, det op f o v = ((f == T) && (k == (o || v)))) (he : Stops ε lin kept full stop k)
    (hw : ∀ x, isLeft x = true → wanted x = true) {q : Point} (hq : q ∉ (ctxOf first second ε).P)
    (hm : q ∈ segsPts (pieces M acc)) :
    q ∈ segsPts lin ∧ (k = true ↔ (q ∈ segsPts full ∨ q ∈ R)) := by
  have w := h.wf
  obtain ⟨s, hs, hqs⟩ := hm
  obtain ⟨x, hx, rfl⟩ := List.mem_map.mp hs
  obtain ⟨xL, x1, x2, x3, x4⟩ := (S.mem_picked h hop he hw x).mp hx
  have ax := (mem_piece w xL q).mp hqs
  refine ⟨⟨_, S.opT (w.sidLt x xL) x3, ?_⟩, ?_⟩
  · rw [mem_segAt_iff S.good (w.sidLt x xL)]
    exact ⟨ax.1, (w.inA x xL).trans ax.2.1, ax.2.2.trans (w.inB x xL)⟩
  · rw [← x4]
    exact S.key h xL x3 x1 hq ax ⟨_, end_mem w xL, x2, ax.2.2⟩

theorem Setting.pieces_sup (S : Setting ε first second lin kept full R T stop)
    (h : MFinal (ctxOf first second ε) op T (qAt ε first second full T) (okAt ε first second lin stop) stop wanted M acc)
    (hop : ∀ f o v, det op f o v = ((f == T) && (k == (o || v)))) (he : Stops ε lin kept full stop k)
    (hw : ∀ x, isLeft x = true → wanted x = true) {q : Point} (hq : q ∉ (ctxOf first second ε).P)
    (hm : q ∈ segsPts lin) (hk : k = true ↔ (q ∈ segsPts full ∨ q ∈ R)) : q ∈ segsPts (pieces M acc) := by
  have w := h.wf
  have g := S.good
  obtain ⟨s, hs, hqs⟩ := hm
  obtain ⟨i, hi', hT, rfl⟩ := S.atT hs
  obtain ⟨o, a, b⟩ := (mem_segAt_iff g hi' q).mp hqs
  obtain ⟨x, hx, e, l, r⟩ := w.cover i hi' _ a b
  have ax : At (ctxOf first second ε) M.lin x q := ⟨by rw [e]; exact o, l, r⟩
  rw [← e] at hT
  -- the range reaches beyond the point
  have hv : ∃ v ∈ (ctxOf first second ε).P, stop v = false ∧ (ctxOf first second ε).X q ≤ (ctxOf first second ε).X v := by
    rcases he with he | ⟨rfl, he⟩
    · exact ⟨_, g.memB i hi', he _ hs, b⟩
    · have hreg := hk.mp rfl
      have : ∃ s ∈ full, Xe ε q ≤ Xe ε (hi s) := by
        by_cases hf : q ∈ segsPts full
        · obtain ⟨s, hs, hqs⟩ := hf
          exact ⟨s, hs, ((mem_segPts_sF (S.edges.inc s hs) q).mp hqs).2.2⟩
        · have hd := (S.edges.off q hf).mpr (hreg.resolve_left hf)
          by_contra hn
          push Not at hn
          have : downParity ε q full = false := xorSum_false fun s hs => bool_false fun z => by
            have := ((below_sF (S.edges.inc s hs) q).mp z).1.2
            have := hn s hs
            linarith
          rw [this] at hd; cases hd
      obtain ⟨t, ht, htq⟩ := this
      rcases he t ht with ⟨kp, st⟩ | z
      · obtain ⟨j, hj, _, rfl⟩ := S.atN kp
        exact ⟨_, g.memB j hj, st, htq⟩
      · refine ⟨_, g.memA i hi', S.begins _ hs, ?_⟩
        exact htq.trans (z _ hs)
  obtain ⟨v, vP, vs, vX⟩ := hv
  have x1 : stop (M.lin.start x) = false :=
    S.mono.false ((g.le_iff (w.memP x hx.1) vP).mpr (l.trans vX)) vs
  have hx4 : (flag M.other x || flag M.overlap x) = k :=
    bool_eq_of_iff ((S.key h hx hT x1 hq ax ⟨v, vP, vs, vX⟩).trans hk.symm)
  refine ⟨_, List.mem_map.mpr ⟨x, (S.mem_picked h hop he hw x).mpr
    ⟨hx, x1, S.chosen_end h he hx x1 hT hx4, hT, hx4⟩, rfl⟩, ?_⟩
  exact (mem_piece w hx q).mpr ax

/-- The returned list: left events only. -/
theorem reduce_left (h : MFinal (ctxOf first second ε) op T (qAt ε first second full T)
      (okAt ε first second lin stop) stop isLeft M acc) : M.reduceEvents acc = pieces M acc := by
  unfold Mix.reduceEvents pieces picked
  congr 1
  refine List.filter_congr fun x hx => ?_
  rw [((h.mem x).mp hx).2.1, Bool.true_and]

/-- The returned list: all events. -/
theorem Setting.reduce_all (S : Setting ε first second lin kept full R T stop)
    (h : MFinal (ctxOf first second ε) op T (qAt ε first second full T) (okAt ε first second lin stop) stop
      (fun _ => true) M acc)
    (hop : ∀ f o v, det op f o v = ((f == T) && (k == (o || v)))) (he : Stops ε lin kept full stop k) :
    (M.reduceEvents acc).Perm (pieces M acc ++ (pieces M acc).map fun s => ⟨s.end, s.start⟩) := by
  have w := h.wf
  have memP := S.mem_picked h hop he (fun _ _ => rfl)
  have e : (pieces M acc).map (fun s => (⟨s.end, s.start⟩ : Segment)) =
      ((picked M acc).map M.lin.opp).map fun x => ⟨M.lin.start x, M.lin.end x⟩ := by
    unfold pieces
    rw [List.map_map, List.map_map]
    refine List.map_congr_left fun x hx => ?_
    have hx' := ((memP x).mp hx).1
    show (⟨M.lin.end x, M.lin.start x⟩ : Segment) = ⟨M.lin.start (M.lin.opp x), M.lin.end (M.lin.opp x)⟩
    unfold Lin.end
    rw [w.oppOpp x hx'.1]
  rw [e]
  unfold pieces Mix.reduceEvents
  rw [← List.map_append]
  refine List.Perm.map _ ?_
  have nd : (picked M acc).Nodup := h.nd.filter _
  refine (List.perm_ext_iff_of_nodup (h.nd.filter _) ?_).mpr fun x => ?_
  · rw [List.nodup_append]
    refine ⟨nd, ?_, ?_⟩
    · refine List.Nodup.map_on (fun x hx y hy hxy => ?_) nd
      rw [← w.oppOpp x ((memP x).mp hx).1.1, hxy, w.oppOpp y ((memP y).mp hy).1.1]
    · intro x hx y hy hxy
      subst hxy
      obtain ⟨z, hz, rfl⟩ := List.mem_map.mp hy
      have h1 := ((memP _).mp hx).1.2
      have h2 := ((memP _).mp hz).1
      have := w.oppPar z h2.1
      have := h2.2
      omega
  · rw [List.mem_append, List.mem_filter, List.mem_map]
    constructor
    · rintro ⟨hx, hf⟩
      obtain ⟨a, _, c⟩ := (h.mem x).mp hx
      rcases Nat.mod_two_eq_zero_or_one x with p | p
      · left
        unfold picked
        rw [List.mem_filter, Bool.and_eq_true]
        exact ⟨hx, isLeft_iff.mpr p, hf⟩
      · right
        have pl : M.lin.opp x % 2 = 0 := by have := w.oppPar x a; omega
        have nl : ¬ isLeft x = true := by rw [isLeft_iff]; omega
        have oL : IsL M.lin (M.lin.opp x) := ⟨w.oppLt x a, pl⟩
        refine ⟨M.lin.opp x, ?_, w.oppOpp x a⟩
        unfold picked
        rw [List.mem_filter, Bool.and_eq_true]
        refine ⟨(h.mem _).mpr ⟨oL.1, rfl, ?_⟩, isLeft_iff.mpr pl, ?_⟩
        · have := start_le_end S.good w oL
          unfold Lin.end at this
          rw [w.oppOpp x a] at this
          exact S.mono.false this.le c
        · rw [fromResult_left pl]
          unfold Mix.isFromResult at hf
          rw [toLeft_right nl] at hf
          exact hf
    · rintro (hx | ⟨y, hy, rfl⟩)
      · unfold picked at hx
        rw [List.mem_filter, Bool.and_eq_true] at hx
        exact ⟨hx.1, hx.2.2⟩
      · obtain ⟨yL, y1, y2, y3, y4⟩ := (memP y).mp hy
        refine ⟨(h.mem _).mpr ⟨w.oppLt y yL.1, rfl, y2⟩, ?_⟩
        have nl : ¬ isLeft (M.lin.opp y) = true := by
          rw [isLeft_iff]
          have := w.oppPar y yL.1
          have := yL.2
          omega
        unfold Mix.isFromResult
        rw [toLeft_right nl, w.oppOpp y yL.1]
        exact (Setting.chosen h hop yL y1).mpr ⟨y3, y4⟩

end
end Rene.Sweep
