import Verif.Lemmas.BO.Loop
import Verif.Lemmas.Sweep.Build

/-! The validity sweep: the initial state, and bad contacts by point sets. -/

namespace Rene.BO
open Rene Spec Sweep

variable {L : List Segment} {ε : ℚ}

theorem init_lin_endpoints (L : List Segment) : (Reg.init L).lin.endpoints = (Lin.init [] L).endpoints := rfl
theorem init_lin_opposites (L : List Segment) : (Reg.init L).lin.opposites = (Lin.init [] L).opposites := by
  simp [Reg.init, Lin.init]
theorem init_lin_ids (L : List Segment) : (Reg.init L).lin.segmentsIds = (Lin.init [] L).segmentsIds := by
  simp [Reg.init, Lin.init]

theorem init_wfb (g : (ctxOf [] L ε).Good0) : WfB (ctxOf [] L ε) (Reg.init L).lin := by
  refine WfB.congr (S := Lin.init [] L) ?_ (init_lin_endpoints L) (init_lin_opposites L) (init_lin_ids L)
  have hc := init_cnt (first := []) (second := L)
  have hN : (ctxOf [] L ε).N = L.length := rfl
  have hlen : ([] ++ L : List Segment).length = L.length := rfl
  rw [hlen] at hc
  have cs : ∀ {e}, IsL (Lin.init [] L) e → ∃ i < ([] ++ L).length, e = 2 * i := by
    intro e he
    have h1 := he.1
    have h2 := he.2
    rw [hc] at h1
    exact ⟨e / 2, by rw [hlen]; omega, by omega⟩
  have sid : ∀ {i}, i < ([] ++ L).length → (Lin.init [] L).sid (2 * i) = i := by
    intro i hi'
    rw [init_sid (by omega)]; omega
  have st : ∀ {i}, i < ([] ++ L).length → (Lin.init [] L).start (2 * i) = (ctxOf [] L ε).A i := fun h => (init_start h).1
  have en : ∀ {i}, i < ([] ++ L).length → (Lin.init [] L).end (2 * i) = (ctxOf [] L ε).B i := fun h => init_end h
  constructor
  · rw [hc]; omega
  · show ((List.range (2 * (0 + L.length))).map _).length = _
    rw [hc, List.length_map, List.length_range]; omega
  · show (List.range (0 + L.length)).length * 2 = _
    rw [hc, List.length_range]; omega
  · intro e he
    rw [hc] at he ⊢
    rw [init_opp (by rw [hlen]; exact he)]
    split <;> omega
  · intro e he
    rw [hc] at he
    have h1 : (Lin.init [] L).opp e < 2 * ([] ++ L).length := by
      rw [init_opp (by rw [hlen]; exact he), hlen]; split <;> omega
    rw [init_opp h1, init_opp (by rw [hlen]; exact he)]
    split <;> rename_i k <;> split <;> rename_i k' <;> omega
  · intro e he
    rw [hc] at he
    rw [init_opp (by rw [hlen]; exact he)]
    split <;> omega
  · intro e he
    rw [hc] at he
    obtain ⟨k1, k2⟩ := init_start (first := []) (second := L) (i := e / 2) (by rw [hlen]; omega)
    rcases Nat.mod_two_eq_zero_or_one e with h | h
    · have : e = 2 * (e / 2) := by omega
      rw [this, k1]; exact g.memA (e / 2) (by rw [hN]; omega)
    · have : e = 2 * (e / 2) + 1 := by omega
      rw [this, k2]
      exact g.memB (e / 2) (by rw [hN]; omega)
  · intro e he
    obtain ⟨i, hi', rfl⟩ := cs he
    rw [sid hi']; exact hi'
  · intro e he
    obtain ⟨i, hi', rfl⟩ := cs he
    rw [sid hi', st hi']; exact g.onA i hi'
  · intro e he
    obtain ⟨i, hi', rfl⟩ := cs he
    rw [sid hi', en hi']; exact g.onB i hi'
  · intro e he
    obtain ⟨i, hi', rfl⟩ := cs he
    unfold lx rx
    rw [st hi', en hi']; exact g.lt i hi'
  · intro e he
    obtain ⟨i, hi', rfl⟩ := cs he
    unfold lx
    rw [sid hi', st hi']
  · intro e he
    obtain ⟨i, hi', rfl⟩ := cs he
    unfold rx
    rw [sid hi', en hi']
  · rw [hc]; exact le_refl _
  · intro i hi'; exact st hi'
  · intro i hi'; exact (init_start hi').2
  · intro i hi'; exact sid hi'
  · intro e e' he he' hne hs
    obtain ⟨i, hi', rfl⟩ := cs he
    obtain ⟨j, hj', rfl⟩ := cs he'
    rw [sid hi', sid hj'] at hs
    exact absurd (by rw [hs]) hne

theorem init_cnt' (L : List Segment) : cnt (Reg.init L).lin = 2 * L.length := segmentsEndpoints_length L

theorem init_parent {L : List Segment} {z : ℕ} (hz : z < L.length) : (Reg.init L).parent z = z := by
  show (List.range L.length).getD z 0 = z
  rw [List.getD_eq_getElem?_getD, List.getElem?_range hz]; rfl

theorem init_q (L : List Segment) (e : ℕ) : e ∈ (Reg.init L).lin.queue ↔ e < 2 * L.length := by
  show e ∈ List.range _ ↔ _
  rw [List.mem_range]

theorem init_wk (L : List Segment) : Wk L.length (Reg.init L) := by
  refine ⟨fun x hx => ?_, List.length_range, fun x hx => ?_⟩
  · exact List.mem_range.mp hx
  · exact List.mem_range.mp hx

theorem init_base {β : ℚ} (g : (ctxOf [] L ε).Good0) {e : ℕ} (low : Low (ctxOf [] L ε) (Reg.init L) e)
    (hβ : lx (ctxOf [] L ε) (Reg.init L).lin e ≤ β) :
    Base (ctxOf [] L ε) β (Reg.init L) ((Reg.init L).lin.start e) [] := by
  have w := init_wfb g
  have hc := init_cnt' L
  have he : e < cnt (Reg.init L).lin := by rw [hc]; exact (init_q L e).mp low.mem
  refine ⟨w, w.memP e he, hβ, fun x hx => by rw [hc]; exact (init_q L x).mp hx, List.nodup_range, low.min,
    fun x hx => absurd hx List.not_mem_nil, fun x hx => absurd hx List.not_mem_nil, List.length_range,
    fun z hz k => absurd (init_parent hz) k, fun x hx k => Or.inr ⟨x, ?_, k, rfl⟩⟩
  rw [init_q, ← hc]; exact hx

theorem init_clean {β : ℚ} (g : (ctxOf [] L ε).Good0) {e : ℕ} (low : Low (ctxOf [] L ε) (Reg.init L) e) :
    Clean (ctxOf [] L ε) β (Reg.init L) ((Reg.init L).lin.start e) := by
  have w := init_wfb g
  have hc := init_cnt' L
  have hN : (ctxOf [] L ε).N = L.length := rfl
  have allq : ∀ x < 2 * (ctxOf [] L ε).N, x ∈ (Reg.init L).lin.queue := fun x hx => (init_q L x).mpr hx
  refine ⟨⟨fun x hx k => ?_, fun i hi' => Or.inl ?_, fun x hx k => absurd (allq x hx) k, fun x => ?_, List.nodup_nil,
    List.Pairwise.nil, ?_⟩, List.isChain_nil, ?_, Or.inl fun x hx => absurd hx List.not_mem_nil⟩
  · rw [hc] at hx; rw [hN] at k; omega
  · have := init_opp (first := []) (second := L) (e := 2 * i) (by show 2 * i < 2 * L.length; omega)
    unfold Lin.opp at this ⊢
    rw [init_lin_opposites, this, if_pos (by omega)]; omega
  · constructor
    · intro k; exact absurd k List.not_mem_nil
    · rintro ⟨⟨k1, _⟩, k2, _⟩; exact absurd (allq x k1) k2
  · rintro ⟨x, hx, _, k, _⟩; exact absurd (allq x hx) k
  · intro i hi' j _ _ h _ _ _
    have := low.min (2 * i) (allq _ (by omega))
    unfold lx at this
    rw [w.initA i hi'] at this
    exact absurd h (not_lt.mpr this)

theorem sweepWith_bad {β : ℚ} {pick : Reg → ℕ} (hpick : GoodPick pick) {test : Intersection → Bool}
    (hT : ∀ x, test x = true → x.relation = .touch) (g : (ctxOf [] L ε).Good0)
    (hβ : ∀ i j t, Bad (ctxOf [] L ε) i j t → β ≤ t) {i j : ℕ} (bad : Bad (ctxOf [] L ε) i j β) (fuel n : ℕ) :
    sweepWith pick test fuel L ≠ some (some n) := by
  intro h
  have w := init_wfb g
  have hN : (ctxOf [] L ε).N = L.length := rfl
  have hi' : i < L.length := bad.1
  have hne : (Reg.init L).lin.queue ≠ [] := fun k => by
    have := (init_q L 0).mpr (by omega)
    rw [k] at this; exact absurd this List.not_mem_nil
  have low := low_of_pick hpick g w (fun e he => by rw [init_cnt']; exact (init_q L e).mp he) hne
  unfold sweepWith at h
  simp only at h
  rw [if_neg hne] at h
  generalize pick (Reg.init L) = e at *
  have hle : lx (ctxOf [] L ε) (Reg.init L).lin e ≤ β := by
    have := low.min (2 * i) ((init_q L _).mpr (by omega))
    refine this.trans ?_
    unfold lx
    rw [w.initA i hi']
    exact bad.2.2.2.1.1
  have he : e < cnt (Reg.init L).lin := by rw [init_cnt']; exact (init_q L e).mp low.mem
  have st := st_process (by omega) (init_wk L) e
  by_cases ok : ((Reg.init L).process e).lin.ok = false
  · rw [if_pos ok] at h; cases h
  rw [if_neg ok] at h
  have hs : ((Reg.init L).process e).start e = (Reg.init L).lin.start e := by
    obtain ⟨t, ht⟩ := st.pre
    show ((Reg.init L).process e).lin.start e = _
    unfold Lin.start
    rw [ht, List.getD_eq_getElem?_getD, List.getElem?_append_left he, List.getD_eq_getElem?_getD]
  rcases step_base g hβ (init_base g low hle) low rfl (Or.inr (init_clean g low)) with k | ⟨k1, k2, k3⟩
  · exact ok k
  · rw [hs, k2] at h
    exact sweep_bad hpick hT g hβ bad _ _ _ _ _ _ k1 st.wk k3 h

/-! ### Bad contacts -/

/-- The first bad contact of two segments. -/
theorem bad_least_pair {c : Ctx} {i j : ℕ} {t : ℚ} (h : Bad c i j t) :
    ∃ t0, Bad c i j t0 ∧ ∀ t, Bad c i j t → t0 ≤ t := by
  by_cases hc : c.Coll i j
  · obtain ⟨h1, h2, h3, h4, h5, h6, h7⟩ := h
    have m : max (c.X (c.A i)) (c.X (c.A j)) ≤ t := max_le h4.1 h5.1
    by_cases e : max (c.X (c.A i)) (c.X (c.A j)) = t
    · refine ⟨t, ⟨h1, h2, h3, h4, h5, h6, h7⟩, fun t' ht' => ?_⟩
      rw [← e]; exact max_le ht'.2.2.2.1.1 ht'.2.2.2.2.1.1
    · have m' := lt_of_le_of_ne m e
      refine ⟨max (c.X (c.A i)) (c.X (c.A j)), ⟨h1, h2, h3, ⟨le_max_left _ _, by linarith⟩, ⟨le_max_right _ _, by linarith⟩,
        hc.f_eq _, ?_⟩, fun t' ht' => max_le ht'.2.2.2.1.1 ht'.2.2.2.2.1.1⟩
      rcases lt_trichotomy (c.X (c.A i)) (c.X (c.A j)) with k | k | k
      · left; rw [max_eq_right k.le] at m' ⊢; exact ⟨k, by linarith⟩
      · right; right; rw [k, max_self]; exact ⟨hc, rfl, rfl⟩
      · right; left; rw [max_eq_left k.le] at m' ⊢; exact ⟨k, by linarith⟩
  · refine ⟨t, h, fun t' ht' => ?_⟩
    by_contra k
    exact hc (Ctx.coll_of_two (by intro z; rw [z] at k; exact k le_rfl : t' ≠ t) ht'.2.2.2.2.2.1 h.2.2.2.2.2.1)

theorem bad_least {c : Ctx} {i j : ℕ} {t : ℚ} (h : Bad c i j t) :
    ∃ β i j, Bad c i j β ∧ ∀ i j t, Bad c i j t → β ≤ t := by
  classical
  have ch : ∀ u : ℕ × ℕ, ∃ t0, (∃ t, Bad c u.1 u.2 t) → Bad c u.1 u.2 t0 ∧ ∀ t, Bad c u.1 u.2 t → t0 ≤ t := by
    intro u
    by_cases k : ∃ t, Bad c u.1 u.2 t
    · obtain ⟨t, ht⟩ := k
      obtain ⟨t0, k1, k2⟩ := bad_least_pair ht
      exact ⟨t0, fun _ => ⟨k1, k2⟩⟩
    · exact ⟨0, fun g => absurd g k⟩
  choose T hT using ch
  have mem : ∀ u : ℕ × ℕ, u ∈ (Finset.range c.N ×ˢ Finset.range c.N).filter (fun u => ∃ t, Bad c u.1 u.2 t) ↔
      ∃ t, Bad c u.1 u.2 t := by
    intro u
    rw [Finset.mem_filter, Finset.mem_product, Finset.mem_range, Finset.mem_range]
    exact ⟨fun k => k.2, fun k => ⟨by obtain ⟨t, k⟩ := k; exact ⟨k.1, k.2.1⟩, k⟩⟩
  obtain ⟨u, hu, hmin⟩ := Finset.exists_min_image
    ((Finset.range c.N ×ˢ Finset.range c.N).filter (fun u => ∃ t, Bad c u.1 u.2 t)) T ⟨(i, j), (mem (i, j)).mpr ⟨t, h⟩⟩
  refine ⟨T u, u.1, u.2, (hT u ((mem u).mp hu)).1, fun i j t k => ?_⟩
  have := hmin (i, j) ((mem (i, j)).mpr ⟨t, k⟩)
  exact this.trans ((hT (i, j) ⟨t, k⟩).2 t k)

theorem lo_or (s : Segment) (q : Point) : (q = s.start ∨ q = s.end) ↔ (q = lo s ∨ q = hi s) := by
  rcases lo_hi s with ⟨h1, h2, _⟩ | ⟨h1, h2, _⟩ <;> rw [h1, h2]
  exact or_comm

/-- Two segments are noded if and only if they have no bad contact. -/
theorem noded_iff (g : (ctxOf [] L ε).Good0) {i j : ℕ} (hi' : i < L.length) (hj : j < L.length) (hij : i ≠ j) :
    Noded (segAt L i) (segAt L j) ↔ ∀ t, ¬ Bad (ctxOf [] L ε) i j t := by
  have pi := fun q => g.pts (i := i) hi' q
  have pj := fun q => g.pts (i := j) hj q
  have eL : ([] ++ L : List Segment) = L := rfl
  rw [eL] at pi pj
  have eA : ∀ k, (ctxOf [] L ε).A k = lo (segAt L k) := fun _ => rfl
  have eB : ∀ k, (ctxOf [] L ε).B k = hi (segAt L k) := fun _ => rfl
  have gi := g.lt i hi'
  have gj := g.lt j hj
  have oAi := g.onA i hi'
  have oBi := g.onB i hi'
  have oAj := g.onA j hj
  have oBj := g.onB j hj
  have hNi : i < (ctxOf [] L ε).N := hi'
  have hNj : j < (ctxOf [] L ε).N := hj
  generalize ctxOf [] L ε = c at *
  -- the point of a line with a given abscissa
  have pt : ∀ k t, ∃ q : Point, c.On k q ∧ c.X q = t := by
    intro k t
    refine ⟨⟨t - c.ε * c.f k t, c.f k t⟩, ?_, ?_⟩
    · have : c.X ⟨t - c.ε * c.f k t, c.f k t⟩ = t := by unfold Ctx.X; simp
      unfold Ctx.On; rw [this]
    · unfold Ctx.X; simp
  constructor
  · rintro ⟨ap, en⟩ t ⟨_, _, _, h4, h5, h6, h7⟩
    obtain ⟨q, q1, q2⟩ := pt i t
    have q3 : c.On j q := by unfold Ctx.On at *; rw [q1, q2]; exact h6
    have m1 : q ∈ segPts (segAt L i) := (pi q).mpr ⟨q1, by rw [q2]; exact h4.1, by rw [q2]; exact h4.2⟩
    have m2 : q ∈ segPts (segAt L j) := (pj q).mpr ⟨q3, by rw [q2]; exact h5.1, by rw [q2]; exact h5.2⟩
    obtain ⟨e1, e2⟩ := en q m1 m2
    rw [lo_or, ← eA, ← eB] at e1 e2
    rcases h7 with k | k | ⟨hc, k1, k2⟩
    · rcases e1 with e | e <;> rw [e] at q2 <;> linarith [k.1, k.2]
    · rcases e2 with e | e <;> rw [e] at q2 <;> linarith [k.1, k.2]
    · obtain ⟨r, r1, r2⟩ := pt i (min (c.X (c.B i)) (c.X (c.B j)))
      have r3 : c.On j r := r1.coll hc
      have l1 : t < min (c.X (c.B i)) (c.X (c.B j)) := lt_min (by linarith) (by linarith)
      have n1 : r ∈ segPts (segAt L i) := (pi r).mpr ⟨r1, by rw [r2]; linarith, by rw [r2]; exact min_le_left _ _⟩
      have n2 : r ∈ segPts (segAt L j) := (pj r).mpr ⟨r3, by rw [r2]; linarith, by rw [r2]; exact min_le_right _ _⟩
      have := ap q ⟨m1, m2⟩ r ⟨n1, n2⟩
      rw [this] at q2
      linarith
  · intro nb
    have eqf : ∀ {q}, c.On i q → c.On j q → c.f i (c.X q) = c.f j (c.X q) := by
      intro q o1 o2; unfold Ctx.On at o1 o2; rw [← o1, ← o2]
    have two : ∀ q r, q ∈ segPts (segAt L i) ∩ segPts (segAt L j) → r ∈ segPts (segAt L i) ∩ segPts (segAt L j) →
        ¬ c.X q < c.X r := by
      rintro q r ⟨q1, q2⟩ ⟨r1, r2⟩ lt
      rw [pi] at q1 r1
      rw [pj] at q2 r2
      have hc : c.Coll i j := Ctx.coll_of_two lt.ne (eqf q1.1 q2.1) (eqf r1.1 r2.1)
      refine nb ((c.X q + c.X r) / 2) ⟨hNi, hNj, hij, ⟨by linarith [q1.2.1], by linarith [r1.2.2]⟩,
        ⟨by linarith [q2.2.1], by linarith [r2.2.2]⟩, hc.f_eq _, Or.inl ⟨by linarith [q1.2.1], by linarith [r1.2.2]⟩⟩
    refine ⟨fun q hq r hr => ?_, fun q hq hr => ?_⟩
    · rcases lt_trichotomy (c.X q) (c.X r) with k | k | k
      · exact absurd k (two q r hq hr)
      · exact ((pi q).mp hq.1).1.eq_of_X ((pi r).mp hr.1).1 k
      · exact absurd k (two r q hr hq)
    · have h1 := (pi q).mp hq
      have h2 := (pj q).mp hr
      rw [lo_or, lo_or, ← eA, ← eB, ← eA, ← eB]
      constructor
      · by_contra k
        push Not at k
        refine nb (c.X q) ⟨hNi, hNj, hij, h1.2, h2.2, eqf h1.1 h2.1, Or.inl ⟨lt_of_le_of_ne h1.2.1 fun z => k.1 ?_,
          lt_of_le_of_ne h1.2.2 fun z => k.2 ?_⟩⟩
        · exact h1.1.eq_of_X oAi z.symm
        · exact h1.1.eq_of_X oBi z
      · by_contra k
        push Not at k
        refine nb (c.X q) ⟨hNi, hNj, hij, h1.2, h2.2, eqf h1.1 h2.1, Or.inr (Or.inl ⟨lt_of_le_of_ne h2.2.1 fun z => k.1 ?_,
          lt_of_le_of_ne h2.2.2 fun z => k.2 ?_⟩)⟩
        · exact h2.1.eq_of_X oAj z.symm
        · exact h2.1.eq_of_X oBj z

theorem Noded.symm {s t : Segment} (h : Noded s t) : Noded t s :=
  ⟨fun p hp q hq => h.1 p ⟨hp.2, hp.1⟩ q ⟨hq.2, hq.1⟩, fun p hp hq => (h.2 p hq hp).symm⟩

theorem pairwise_segAt {P : Segment → Segment → Prop} (hP : ∀ s t, P s t → P t s) {L : List Segment} :
    L.Pairwise P ↔ ∀ i < L.length, ∀ j < L.length, i ≠ j → P (segAt L i) (segAt L j) := by
  have at' : ∀ i (h : i < L.length), segAt L i = L[i] := by
    intro i h
    unfold segAt
    rw [List.getD_eq_getElem?_getD, List.getElem?_eq_getElem h]; rfl
  rw [List.pairwise_iff_getElem]
  constructor
  · intro h i hi' j hj hij
    rw [at' i hi', at' j hj]
    rcases lt_or_gt_of_ne hij with k | k
    · exact h i j hi' hj k
    · exact hP _ _ (h j i hj hi' k)
  · intro h i j hi' hj hij
    rw [← at' i hi', ← at' j hj]; exact h i hi' j hj hij.ne

theorem exists_good0 (hL : ∀ s ∈ L, s.start ≠ s.end) : ∃ ε, (ctxOf [] L ε).Good0 := by
  obtain ⟨ε, e0, he⟩ := exists_eps (points ([] ++ L) ×ˢ points ([] ++ L))
  exact ⟨ε, good0_of_eps hL (he ε e0 le_rfl)⟩

theorem fullyNoded_iff (g : (ctxOf [] L ε).Good0) (hL : ∀ s ∈ L, s.start ≠ s.end) :
    FullyNoded L ↔ ∀ i j t, ¬ Bad (ctxOf [] L ε) i j t := by
  unfold FullyNoded
  rw [pairwise_segAt (fun _ _ => Noded.symm)]
  constructor
  · rintro ⟨_, h⟩ i j t bad
    exact (noded_iff g bad.1 bad.2.1 bad.2.2.1).mp (h i bad.1 j bad.2.1 bad.2.2.1) t bad
  · exact fun h => ⟨hL, fun i hi' j hj hij => (noded_iff g hi' hj hij).mpr (h i j)⟩

/-- If every reported contact is a touch, then the segments are noded. -/
theorem sweepWith_noded {pick : Reg → ℕ} (hpick : GoodPick pick) {test : Intersection → Bool}
    (hT : ∀ x, test x = true → x.relation = .touch) (hL : ∀ s ∈ L, s.start ≠ s.end) {fuel n : ℕ}
    (h : sweepWith pick test fuel L = some (some n)) : FullyNoded L := by
  obtain ⟨ε, g⟩ := exists_good0 hL
  rw [fullyNoded_iff g hL]
  intro i j t bad
  obtain ⟨β, i, j, b, hβ⟩ := bad_least bad
  exact sweepWith_bad hpick hT g hβ b fuel n h

end Rene.BO
