import Verif.Lemmas.Sweep.MixLab
import Verif.Lemmas.Sweep.Result

/-! What the flags at the end of the mixed sweep say about the points of the pieces. -/

namespace Rene.Sweep
open Rene Spec

section
variable {c : Ctx} {op : MixOp} {T : Bool} {q : ℕ → ℚ → Bool} {ok : ℚ → Prop} {stop : Point → Bool}
  {wanted : ℕ → Bool} {M : Mix} {acc : List ℕ}

/-- Two lines without a common point between two abscissas. -/
theorem line_sign {i j : ℕ} {a b : ℚ} (no : ∀ t, a ≤ t → t ≤ b → c.f i t ≠ c.f j t) (hab : a ≤ b) :
    c.f i a < c.f j a ↔ c.f i b < c.f j b := by
  have key : ∀ t, c.f i t - c.f j t = (c.f i a - c.f j a) + (c.K i - c.K j) * (t - a) := by
    intro t; unfold Ctx.f; ring
  have zero : (c.f i a - c.f j a) * (c.f i b - c.f j b) ≤ 0 → False := by
    intro h
    set u := c.f i a - c.f j a with hu
    set v := c.f i b - c.f j b with hv
    have na : u ≠ 0 := sub_ne_zero.mpr (no a le_rfl hab)
    have nb : v ≠ 0 := sub_ne_zero.mpr (no b hab le_rfl)
    have kb := key b
    rw [← hv] at kb
    have hne : u - v ≠ 0 := by
      intro e
      have : u = v := by linarith
      rw [this] at h
      have := mul_self_pos.mpr nb
      linarith
    have hr : 0 ≤ u / (u - v) ∧ u / (u - v) ≤ 1 := by
      rcases lt_or_gt_of_ne na with k | k
      · have : 0 ≤ v := by by_contra z; nlinarith [mul_pos_of_neg_of_neg k (not_le.mp z)]
        exact ⟨div_nonneg_of_nonpos k.le (by linarith), (div_le_one_of_neg (by
          rcases lt_or_gt_of_ne nb with z | z <;> linarith)).mpr (by linarith)⟩
      · have : v ≤ 0 := by by_contra z; nlinarith [mul_pos k (not_le.mp z)]
        exact ⟨div_nonneg k.le (by linarith), (div_le_one (by
          rcases lt_or_gt_of_ne nb with z | z <;> linarith)).mpr (by linarith)⟩
    refine no (a + u / (u - v) * (b - a)) (by nlinarith) (by nlinarith) (sub_eq_zero.mp ?_)
    rw [key]
    have : (c.K i - c.K j) * (a + u / (u - v) * (b - a) - a) = u / (u - v) * ((c.K i - c.K j) * (b - a)) := by ring
    rw [this]
    have : (c.K i - c.K j) * (b - a) = v - u := by linarith
    rw [this]
    field_simp
    ring
  constructor
  · intro h
    by_contra k
    exact zero (mul_nonpos_of_nonpos_of_nonneg (by linarith) (by linarith))
  · intro h
    by_contra k
    exact zero (mul_nonpos_of_nonneg_of_nonpos (by linarith) (by linarith))

/-- Nothing happens along a piece before its end. -/
theorem MFinal.cls (g : c.Good) (hs : Mono stop) (h : MFinal c op T q ok stop wanted M acc) {x : ℕ}
    (hx : IsL M.lin x) {τ : ℚ} (h1 : lx c M.lin x < τ) (h2 : τ < rx c M.lin x)
    (hv : ∃ v ∈ c.P, stop v = false ∧ τ ≤ c.X v) {j : ℕ} (hj : j < c.N) :
    Cls c (M.lin.sid x) j (lx c M.lin x) τ := by
  obtain ⟨v, vP, vs, vX⟩ := hv
  have hst : ∀ p ∈ c.P, c.X p ≤ τ → stop p = false := fun p hp hpX =>
    hs.false ((g.le_iff hp vP).mpr (hpX.trans vX)) vs
  have w := h.wf
  by_cases hc : c.Coll (M.lin.sid x) j
  · refine Or.inr (Or.inr ⟨hc, ?_⟩)
    have nA : ¬ (lx c M.lin x < c.X (c.A j) ∧ c.X (c.A j) ≤ τ) := fun k =>
      h.noInt _ (g.memA j hj) (hst _ (g.memA j hj) k.2) x hx ((g.onA j hj).coll hc.symm) ⟨k.1, by linarith⟩
    have nB : ¬ (lx c M.lin x < c.X (c.B j) ∧ c.X (c.B j) ≤ τ) := fun k =>
      h.noInt _ (g.memB j hj) (hst _ (g.memB j hj) k.2) x hx ((g.onB j hj).coll hc.symm) ⟨k.1, by linarith⟩
    unfold Spans
    constructor
    · rintro ⟨k1, k2⟩
      exact ⟨by linarith, not_le.mp fun z => nB ⟨k2, z⟩⟩
    · rintro ⟨k1, k2⟩
      exact ⟨not_lt.mp fun z => nA ⟨z, k1⟩, by linarith⟩
  · have no : ∀ t, c.X (c.A j) ≤ t → t ≤ c.X (c.B j) → lx c M.lin x < t → t ≤ τ →
        c.f j t ≠ c.f (M.lin.sid x) t := by
      intro t t1 t2 t3 t4 hf
      have hq : at' c (M.lin.sid x) t ∈ c.P := g.cross _ (w.sidLt x hx) _ hj hc _ at'_on (at'_on' hf.symm)
        (by rw [at'_X]; linarith [w.inA x hx]) (by rw [at'_X]; linarith [w.inB x hx])
        (by rw [at'_X]; exact t1) (by rw [at'_X]; exact t2)
      exact h.noInt _ hq (hst _ hq (by rw [at'_X]; exact t4)) x hx at'_on
        ⟨by rw [at'_X]; exact t3, by rw [at'_X]; linarith⟩
    by_cases hex : ∃ t, c.X (c.A j) ≤ t ∧ t ≤ c.X (c.B j) ∧ lx c M.lin x < t ∧ t ≤ τ ∧ c.f j t < c.f (M.lin.sid x) t
    · obtain ⟨s, s1, s2, s3, s4, s5⟩ := hex
      refine Or.inl fun t t1 t2 t3 t4 => ?_
      rcases le_total s t with k | k
      · exact (line_sign (fun r r1 r2 => no r (s1.trans r1) (r2.trans t2) (by linarith) (r2.trans t4)) k).mp s5
      · exact (line_sign (fun r r1 r2 => no r (t1.trans r1) (r2.trans s2) (by linarith) (r2.trans s4)) k).mpr s5
    · refine Or.inr (Or.inl fun t t1 t2 t3 t4 => Or.inl ?_)
      refine lt_of_le_of_ne (not_lt.mp fun k => hex ⟨t, t1, t2, t3, t4, k⟩) (no t t1 t2 t3 t4).symm

end

/-! ### Setting -/

/-- Operands of a mixed operation: linear components `lin`, of operand `T`, and the edges `kept` among all the
edges `full` of a shape, whose strict inside is `R`. -/
structure Setting (ε : ℚ) (first second lin kept full : List Segment) (R : Set Point) (T : Bool)
    (stop : Point → Bool) : Prop where
  ord : (T = true ∧ first = lin ∧ second = kept) ∨ (T = false ∧ first = kept ∧ second = lin)
  good : (ctxOf first second ε).Good
  edges : Edges ε full R
  noOvFull : NoOverlap full
  noOvLin : NoOverlap lin
  sub : ∀ s ∈ kept, s ∈ full
  mono : Mono stop
  begins : ∀ s ∈ lin, stop (lo s) = false
  drop : ∀ s ∈ full, s ∈ kept ∨ (∀ t ∈ lin, Xe ε (hi s) ≤ Xe ε (lo t)) ∨
    (∀ v ∈ points (first ++ second), stop v = false → Xe ε v < Xe ε (lo s))

/-- The abscissas which matter. -/
def okAt (ε : ℚ) (first second lin : List Segment) (stop : Point → Bool) (τ : ℚ) : Prop :=
  (∃ t ∈ lin, Xe ε (lo t) ≤ τ) ∧ ∃ v ∈ points (first ++ second), stop v = false ∧ τ ≤ Xe ε v

section
variable {ε : ℚ} {first second lin kept full : List Segment} {R : Set Point} {T : Bool} {stop : Point → Bool}

theorem Setting.opT (S : Setting ε first second lin kept full R T stop) {i : ℕ}
    (hi : i < (first ++ second).length) (h : opB (ctxOf first second ε) i = T) : segAt (first ++ second) i ∈ lin := by
  unfold opB at h
  have hF : (ctxOf first second ε).F = first.length := rfl
  rw [hF] at h
  rcases S.ord with ⟨rfl, rfl, rfl⟩ | ⟨rfl, rfl, rfl⟩
  · have k := of_decide_eq_true h
    rw [segAt_append_left k]; exact segAt_mem k
  · have k := not_lt.mp (of_decide_eq_false h)
    rw [segAt_append_right k]
    rw [List.length_append] at hi
    exact segAt_mem (by omega)

theorem Setting.opN (S : Setting ε first second lin kept full R T stop) {i : ℕ}
    (hi : i < (first ++ second).length) (h : opB (ctxOf first second ε) i ≠ T) : segAt (first ++ second) i ∈ kept := by
  unfold opB at h
  have hF : (ctxOf first second ε).F = first.length := rfl
  rw [hF] at h
  rcases S.ord with ⟨rfl, rfl, rfl⟩ | ⟨rfl, rfl, rfl⟩
  · have k : first.length ≤ i := not_lt.mp fun z => h (decide_eq_true z)
    rw [segAt_append_right k]
    rw [List.length_append] at hi
    exact segAt_mem (by omega)
  · have k : i < first.length := by
      by_contra z
      exact h (decide_eq_false z)
    rw [segAt_append_left k]; exact segAt_mem k

theorem Setting.atT (S : Setting ε first second lin kept full R T stop) {s : Segment} (hs : s ∈ lin) :
    ∃ i < (first ++ second).length, opB (ctxOf first second ε) i = T ∧ segAt (first ++ second) i = s := by
  unfold opB
  have hF : (ctxOf first second ε).F = first.length := rfl
  rw [hF]
  obtain ⟨i, hi, e⟩ := mem_segAt hs
  rw [List.length_append]
  rcases S.ord with ⟨rfl, rfl, rfl⟩ | ⟨rfl, rfl, rfl⟩
  · exact ⟨i, by omega, decide_eq_true hi, by rw [segAt_append_left hi]; exact e⟩
  · refine ⟨first.length + i, by omega, decide_eq_false (by omega), ?_⟩
    rw [segAt_append_right (by omega), Nat.add_sub_cancel_left]; exact e

theorem Setting.atN (S : Setting ε first second lin kept full R T stop) {s : Segment} (hs : s ∈ kept) :
    ∃ i < (first ++ second).length, opB (ctxOf first second ε) i ≠ T ∧ segAt (first ++ second) i = s := by
  unfold opB
  have hF : (ctxOf first second ε).F = first.length := rfl
  rw [hF]
  obtain ⟨i, hi, e⟩ := mem_segAt hs
  rw [List.length_append]
  rcases S.ord with ⟨rfl, rfl, rfl⟩ | ⟨rfl, rfl, rfl⟩
  · refine ⟨first.length + i, by omega, by simp, ?_⟩
    rw [segAt_append_right (by omega), Nat.add_sub_cancel_left]; exact e
  · exact ⟨i, by omega, by simp [hi], by rw [segAt_append_left hi]; exact e⟩

theorem Setting.dropped (S : Setting ε first second lin kept full R T stop) {s : Segment} (hs : s ∈ full) :
    (∃ k < (first ++ second).length, opB (ctxOf first second ε) k ≠ T ∧ segAt (first ++ second) k = s) ∨
      (∀ τ, okAt ε first second lin stop τ → Xe ε (hi s) ≤ τ) ∨
      (∀ τ, okAt ε first second lin stop τ → τ < Xe ε (lo s)) := by
  rcases S.drop s hs with h | h | h
  · exact Or.inl (S.atN h)
  · right; left
    rintro τ ⟨⟨t, ht, k⟩, _⟩
    exact (h t ht).trans k
  · right; right
    rintro τ ⟨_, v, vP, vs, k⟩
    exact lt_of_le_of_lt k (h v vP vs)

/-- The value for a segment. -/
noncomputable def qAt (ε : ℚ) (first second full : List Segment) (T : Bool) (i : ℕ) (τ : ℚ) : Bool :=
  xorSum (gb ε T (segAt (first ++ second) i) τ) full

theorem Setting.lab (S : Setting ε first second lin kept full R T stop) :
    Lab (ctxOf first second ε) T (inteOf (Mix.init first second)) (qAt ε first second full T)
      (okAt ε first second lin stop) :=
  mix_lab S.edges S.noOvFull (fun _ hi h => S.sub _ (S.opN hi h)) fun _ hs => S.dropped hs

theorem Setting.ne (S : Setting ε first second lin kept full R T stop) :
    (∀ s ∈ first, s.start ≠ s.end) ∧ (∀ s ∈ second, s.start ≠ s.end) := by
  have h1 := S.noOvLin.1
  have h2 : ∀ s ∈ kept, s.start ≠ s.end := fun s hs => S.noOvFull.1 s (S.sub s hs)
  rcases S.ord with ⟨_, rfl, rfl⟩ | ⟨_, rfl, rfl⟩
  · exact ⟨h1, h2⟩
  · exact ⟨h2, h1⟩

theorem Setting.final (S : Setting ε first second lin kept full R T stop) (op : MixOp) (wanted : ℕ → Bool) :
    let r := (Mix.init first second).loop op stop wanted (Lin.fuel (first.length + second.length)) []
    MFinal (ctxOf first second ε) op T (qAt ε first second full T) (okAt ε first second lin stop) stop wanted r.1 r.2 ∧
      r.1.lin.ok = true := by
  refine mix_run_final S.ne.1 S.ne.2 S.good S.lab ?_ S.mono
  rintro i hi hT t t' h1 h2 ⟨_, v, vP, vs, k⟩
  exact ⟨⟨_, S.opT hi hT, h1⟩, v, vP, vs, h2.trans k⟩

variable {op : MixOp} {wanted : ℕ → Bool} {M : Mix} {acc : List ℕ}

/-- The abscissas of a piece matter. -/
theorem Setting.ok (S : Setting ε first second lin kept full R T stop)
    (h : MFinal (ctxOf first second ε) op T (qAt ε first second full T) (okAt ε first second lin stop) stop wanted M acc)
    {x : ℕ} (hx : IsL M.lin x) (hT : opB (ctxOf first second ε) (M.lin.sid x) = T) {τ : ℚ}
    (h1 : lx (ctxOf first second ε) M.lin x ≤ τ)
    (hv : ∃ v ∈ (ctxOf first second ε).P, stop v = false ∧ τ ≤ (ctxOf first second ε).X v) :
    okAt ε first second lin stop τ :=
  ⟨⟨_, S.opT (h.wf.sidLt x hx) hT, (h.wf.inA x hx).trans h1⟩, hv⟩

/-- The value does not change along a piece. -/
theorem Setting.along (S : Setting ε first second lin kept full R T stop)
    (h : MFinal (ctxOf first second ε) op T (qAt ε first second full T) (okAt ε first second lin stop) stop wanted M acc)
    {x : ℕ} (hx : IsL M.lin x) (hT : opB (ctxOf first second ε) (M.lin.sid x) = T) {τ : ℚ}
    (h1 : lx (ctxOf first second ε) M.lin x ≤ τ) (h2 : τ < rx (ctxOf first second ε) M.lin x)
    (hv : ∃ v ∈ (ctxOf first second ε).P, stop v = false ∧ τ ≤ (ctxOf first second ε).X v)
    (hst : stop (M.lin.start x) = false) :
    flag M.other x = qAt ε first second full T (M.lin.sid x) τ := by
  have hok : okAt ε first second lin stop (lx (ctxOf first second ε) M.lin x) :=
    S.ok h hx hT le_rfl ⟨_, h.wf.memP x hx.1, hst, le_rfl⟩
  rw [h.oth x hx hst hT hok]
  rcases eq_or_lt_of_le h1 with k | k
  · rw [k]
  · exact S.lab.along _ (h.wf.sidLt x hx) hT _ _ hok (S.ok h hx hT h1 hv) (h.wf.inA x hx) k
      (lt_of_lt_of_le h2 (h.wf.inB x hx)) fun j hj _ => h.cls S.good S.mono hx k h2 hv hj

/-- Two pieces on one line, of different operands. -/
theorem Setting.other_op (S : Setting ε first second lin kept full R T stop)
    (h : MFinal (ctxOf first second ε) op T (qAt ε first second full T) (okAt ε first second lin stop) stop wanted M acc)
    {x y : ℕ} (hx : IsL M.lin x) (hy : IsL M.lin y) (hne : y ≠ x) (hr : Ret (ctxOf first second ε) M.lin x y)
    (hT : opB (ctxOf first second ε) (M.lin.sid x) = T) : opB (ctxOf first second ε) (M.lin.sid y) ≠ T := by
  intro k
  have so : SameOp (ctxOf first second ε) M.lin x y := by
    unfold SameOp
    rw [← hT] at k
    unfold opB at k
    exact (decide_eq_decide.mp k).symm
  have e := hr.2
  rcases h.wf.noOv x y hx hy hne.symm so hr.1 with z | z
  · have := h.wf.lr x hx; linarith
  · have := h.wf.lr y hy; linarith

/-- What the flags of a piece say about its inner points. -/
theorem Setting.key (S : Setting ε first second lin kept full R T stop)
    (h : MFinal (ctxOf first second ε) op T (qAt ε first second full T) (okAt ε first second lin stop) stop wanted M acc)
    {x : ℕ} (hx : IsL M.lin x) (hT : opB (ctxOf first second ε) (M.lin.sid x) = T)
    (hst : stop (M.lin.start x) = false) {p : Point} (hp : p ∉ (ctxOf first second ε).P)
    (ax : At (ctxOf first second ε) M.lin x p)
    (hv : ∃ v ∈ (ctxOf first second ε).P, stop v = false ∧ (ctxOf first second ε).X p ≤ (ctxOf first second ε).X v) :
    (flag M.other x || flag M.overlap x) = true ↔ p ∈ segsPts full ∨ p ∈ R := by
  have w := h.wf
  have g := S.good
  set c := ctxOf first second ε with hc
  have hX : ∀ p, c.X p = Xe ε p := fun _ => rfl
  obtain ⟨i1, i2⟩ := at_int w hx hp ax
  have hxN := w.sidLt x hx
  by_cases hov : flag M.overlap x = true
  · rw [hov, Bool.or_true]
    refine iff_of_true rfl (Or.inl ?_)
    obtain ⟨y, hy, hne, hr⟩ := (h.ov x hx hst).mp hov
    have hyT := S.other_op h hx hy hne hr hT
    have hyN := w.sidLt y hy
    refine ⟨_, S.sub _ (S.opN hyN hyT), ?_⟩
    rw [mem_segAt_iff g hyN]
    refine ⟨ax.1.coll hr.1, ?_, ?_⟩
    · have := w.inA y hy
      have := hr.2
      linarith
    · have := h.collB x y hx hy hst hr
      linarith
  · rw [bool_false hov, Bool.or_false]
    have hoff : p ∉ segsPts full := by
      rintro ⟨s, hs, hps⟩
      have hps' := (mem_segPts_sF (S.edges.inc s hs) p).mp hps
      have hok := S.ok h hx hT i1.le hv
      have hok' := S.ok h hx hT le_rfl ⟨_, w.memP x hx.1, hst, le_rfl⟩
      rcases S.dropped hs with ⟨k, hk, hop, rfl⟩ | z | z
      · obtain ⟨o, a, b⟩ := (mem_segAt_iff g hk p).mp hps
        have hcoll : c.Coll (M.lin.sid x) k := by
          by_contra hcn
          exact hp (g.cross _ hxN _ hk hcn p ax.1 o (by linarith [w.inA x hx]) (by linarith [w.inB x hx]) a b)
        obtain ⟨y, hy, e, l, r⟩ := w.cover k hk (c.X p) a b
        have ay : At c M.lin y p := ⟨by rw [e]; exact o, l, r⟩
        obtain ⟨j1, j2⟩ := at_int w hy hp ay
        have hce : CollE c M.lin x y := by unfold CollE; rw [e]; exact hcoll
        obtain ⟨v, vP, vs, vX⟩ := hv
        have sy : stop (M.lin.start y) = false :=
          S.mono.false ((g.le_iff (w.memP y hy.1) vP).mpr (by
            have : c.X (M.lin.start y) ≤ c.X p := l
            linarith)) vs
        have hl : lx c M.lin x = lx c M.lin y := by
          rcases lt_trichotomy (lx c M.lin x) (lx c M.lin y) with q | q | q
          · exact absurd ⟨q, lt_trans j1 i2⟩ (h.noInt _ (w.memP y hy.1) sy x hx ((w.onL y hy).coll hce.symm))
          · exact q
          · exact absurd ⟨q, lt_trans i1 j2⟩ (h.noInt _ (w.memP x hx.1) hst y hy ((w.onL x hx).coll hce))
        refine hov ((h.ov x hx hst).mpr ⟨y, hy, ?_, hce, hl⟩)
        rintro rfl
        rw [e] at hT
        exact hop hT
      · have := z _ hok'
        have e : Xe ε p = c.X p := rfl
        rw [e] at hps'
        linarith [hps'.2.2]
      · have := z _ hok
        have e : Xe ε p = c.X p := rfl
        rw [e] at hps'
        linarith [hps'.2.1]
    rw [S.along h hx hT i1.le i2 hv hst]
    have e : qAt ε first second full T (M.lin.sid x) (c.X p) = downParity ε p full := by
      refine xorSum_congr fun s hs => bool_eq_of_iff ?_
      rw [below_sF (S.edges.inc s hs), gb_iff]
      have hy : p.y = sF ε (segAt (first ++ second) (M.lin.sid x)) (Xe ε p) := ax.1
      refine and_congr_right fun hsp => ?_
      have hne : sF ε s (Xe ε p) ≠ p.y := by
        intro e
        exact hoff ⟨s, hs, (mem_segPts_sF (S.edges.inc s hs) p).mpr ⟨e.symm, hsp.1, hsp.2.le⟩⟩
      constructor
      · rintro ((k | ⟨k, _⟩) | ⟨k, _⟩)
        · rw [hy]; exact k
        · exact absurd (k.trans hy.symm) hne
        · exact absurd ((k.f_eq _).trans hy.symm) hne
      · intro k
        left; left
        rw [hy] at k; exact k
    rw [e, S.edges.off p hoff]
    exact ⟨Or.inr, fun k => k.resolve_left hoff⟩

/-- A piece leading out of the range has its outer part outside of the shape. -/
theorem Setting.outer (S : Setting ε first second lin kept full R T stop)
    (h : MFinal (ctxOf first second ε) op T (qAt ε first second full T) (okAt ε first second lin stop) stop wanted M acc)
    (hfull : ∀ s ∈ full, (s ∈ kept ∧ stop (hi s) = false) ∨ ∀ t ∈ lin, Xe ε (hi s) ≤ Xe ε (lo t))
    {x : ℕ} (hx : IsL M.lin x) (hT : opB (ctxOf first second ε) (M.lin.sid x) = T)
    (hst : stop (M.lin.start x) = false) (hend : stop (M.lin.end x) = true) :
    (flag M.other x || flag M.overlap x) = false := by
  have w := h.wf
  have g := S.good
  set c := ctxOf first second ε with hc
  -- the last point of the range
  obtain ⟨v, hv, hmax⟩ := Finset.exists_max_image (c.P.filter fun v => stop v = false) c.X
    ⟨M.lin.start x, Finset.mem_filter.mpr ⟨w.memP x hx.1, hst⟩⟩
  obtain ⟨vP, vs⟩ := Finset.mem_filter.mp hv
  have h1 : lx c M.lin x ≤ c.X v := hmax _ (Finset.mem_filter.mpr ⟨w.memP x hx.1, hst⟩)
  have h2 : c.X v < rx c M.lin x := by
    by_contra k
    have := S.mono.false ((g.le_iff (end_mem w hx) vP).mpr (not_lt.mp k)) vs
    rw [hend] at this; cases this
  have hi' : ∀ s ∈ full, Xe ε (hi s) ≤ c.X v := by
    intro s hs
    rcases hfull s hs with ⟨k, k'⟩ | k
    · obtain ⟨i, hi, _, rfl⟩ := S.atN k
      exact hmax _ (Finset.mem_filter.mpr ⟨g.memB i hi, k'⟩)
    · exact (k _ (S.opT (w.sidLt x hx) hT)).trans ((w.inA x hx).trans h1)
  have o1 : flag M.other x = false := by
    rw [S.along h hx hT h1 h2 ⟨v, vP, vs, le_rfl⟩ hst]
    refine xorSum_false fun s hs => bool_false fun k => ?_
    have := (gb_iff.mp k).1.2
    have := hi' s hs
    linarith
  have o2 : flag M.overlap x = false := by
    refine bool_false fun k => ?_
    obtain ⟨y, hy, hne, hr⟩ := (h.ov x hx hst).mp k
    have hyT := S.other_op h hx hy hne hr hT
    have b := h.collB x y hx hy hst hr
    have := hi' _ (S.sub _ (S.opN (w.sidLt y hy) hyT))
    have e : Xe ε (hi (segAt (first ++ second) (M.lin.sid y))) = c.X (c.B (M.lin.sid y)) := rfl
    rw [e] at this
    linarith
  rw [o1, o2]; rfl

end

end Rene.Sweep
