import Verif.Lemmas.Assemble.Net

/-! The plane graph of the selected events. -/

namespace Rene.Sweep
open Rene Spec Face Assemble

section
variable {ε : ℚ} {op : ShpOp} {first second full1 full2 : List Segment} {R1 R2 : Set Point} {stop : Point → Bool}
  {S : Shp} {M : Mix} {acc : List ℕ}

open Classical in
/-- The ordinate of the relevant point with the given sheared abscissa. -/
noncomputable def ordinate (c : Ctx) (t : ℚ) : ℚ := if h : ∃ p ∈ c.P, c.X p = t then h.choose.y else 0

theorem ordinate_eq {c : Ctx} (g : c.Good) {p : Point} (hp : p ∈ c.P) : ordinate c (c.X p) = p.y := by
  have h : ∃ q ∈ c.P, c.X q = c.X p := ⟨p, hp, rfl⟩
  unfold ordinate
  rw [dif_pos h, (g.eq_iff h.choose_spec.1 hp).mpr h.choose_spec.2]

theorem lx_opp_left {c : Ctx} {S : Lin} {e : ℕ} : lx c S (S.opp e) = rx c S e := rfl

/-- A crossing of selected pieces. -/
theorem Fin.no_cross (h : Fin ε op first second full1 full2 R1 R2 stop S M acc)
    (cl : Close ε op first second full1 full2 stop) {x y : ℕ} (hx : IsL S.lin x) (hy : IsL S.lin y) (hne : x ≠ y)
    (sx : stop (S.lin.start x) = false) (sy : stop (S.lin.start y) = false) (fx : flag S.fromResult x = true)
    (fy : flag S.fromResult y = true) {t : ℚ} (x1 : lx (ctxOf first second ε) S.lin x < t)
    (x2 : t < rx (ctxOf first second ε) S.lin x) (y1 : lx (ctxOf first second ε) S.lin y < t)
    (y2 : t < rx (ctxOf first second ε) S.lin y) :
    (ctxOf first second ε).f (S.lin.sid x) t ≠ (ctxOf first second ε).f (S.lin.sid y) t := by
  set c := ctxOf first second ε with hc
  intro e
  have w := h.wf
  by_cases hcoll : CollE c S.lin x y
  · exact h.apart hx hy hne sx sy fx fy hcoll x1.le x2 y1.le y2
  · have hq := h.good.cross _ (w.sidLt x hx) _ (w.sidLt y hy) hcoll (at' c (S.lin.sid x) t) at'_on (at'_on' e)
      (by rw [at'_X]; exact (w.inA x hx).trans x1.le) (by rw [at'_X]; exact x2.le.trans (w.inB x hx))
      (by rw [at'_X]; exact (w.inA y hy).trans y1.le) (by rw [at'_X]; exact y2.le.trans (w.inB y hy))
    have no := h.h1.noInt
    rw [← h.rel.lin] at no
    refine no _ hq ?_ x hx at'_on (by rw [at'_X]; exact ⟨x1, x2⟩)
    refine h.two.s1.mono.false ((h.good.le_iff hq (end_mem w hx)).mpr ?_) (h.closed cl hx sx fx)
    rw [at'_X]; exact x2.le

theorem Fin.geo (h : Fin ε op first second full1 full2 R1 R2 stop S M acc)
    (cl : Close ε op first second full1 full2 stop) :
    Geo (darts (h.evs cl)) (fun i => slope (ctxOf first second ε) S.lin ((selEvents S acc).get i))
      (fun i => icept (ctxOf first second ε) S.lin ((selEvents S acc).get i)) (ordinate (ctxOf first second ε)) := by
  set c := ctxOf first second ε with hc
  set E := h.evs cl with hE
  have w := h.wf
  have hmem : ∀ i : _root_.Fin (selEvents S acc).length, (selEvents S acc).get i ∈ selEvents S acc := fun i => List.get_mem _ i
  have hcnt : ∀ i : _root_.Fin (selEvents S acc).length, (selEvents S acc).get i < cnt S.lin := fun i =>
    ((mem_selEvents h).mp (hmem i)).1
  have hpc := fun i : _root_.Fin (selEvents S acc).length => h.piece cl (hmem i)
  have vopp : ∀ i, (darts E).v ((darts E).opp i) = lx c S.lin (S.lin.opp ((selEvents S acc).get i)) := fun i => by
    rw [darts_v, get_opp]
  have left : ∀ i, (darts E).lf i = true → S.lin.toLeft ((selEvents S acc).get i) = (selEvents S acc).get i := fun i hi =>
    toLeft_left hi
  have topp : ∀ i, S.lin.toLeft ((selEvents S acc).get ((darts E).opp i)) = S.lin.toLeft ((selEvents S acc).get i) := fun i => by
    rw [get_opp, toLeft_opp w (hcnt i)]
  refine ⟨darts_opp_opp E, darts_lf_opp E, fun d hd => ?_, fun d => ?_, fun d => ?_, fun d => ?_, fun d j hj h1 h2 => ?_,
    fun i j hi hj hij t t1 t2 t3 t4 => ?_, fun b d hb hd hbd => ?_⟩
  · rw [vopp, darts_v]
    have := (hpc d).1
    rw [left d hd] at this
    exact w.lr _ this
  · exact congrArg (fun x => c.K (S.lin.sid x)) (topp d)
  · exact congrArg (fun x => c.C (S.lin.sid x)) (topp d)
  · rw [darts_v]
    have o := on_event w (hcnt d)
    show slope c S.lin _ * c.X _ + icept c S.lin _ = ordinate c (c.X _)
    rw [ordinate_eq h.good (w.memP _ (hcnt d)), o]; rfl
  · rw [darts_v] at h1 h2 ⊢
    rw [darts_v] at h1
    rw [vopp] at h2
    show slope c S.lin _ * c.X _ + icept c S.lin _ ≠ ordinate c (c.X _)
    rw [ordinate_eq h.good (w.memP _ (hcnt d))]
    intro e
    have no := h.h1.noInt
    rw [← h.rel.lin] at no
    have hL := (hpc j).1
    rw [left j hj] at hL
    refine no _ (w.memP _ (hcnt d)) ((mem_selEvents h).mp (hmem d)).2.1 _ hL ?_ ⟨h1, h2⟩
    unfold slope icept at e
    rw [left j hj] at e
    exact e.symm
  · rw [darts_v] at t1 t3
    rw [vopp] at t2 t4
    obtain ⟨p1, p2, p3, p4⟩ := hpc i
    obtain ⟨q1, q2, q3, q4⟩ := hpc j
    rw [left i hi] at p1 p2 p3
    rw [left j hj] at q1 q2 q3
    have hne : (selEvents S acc).get i ≠ (selEvents S acc).get j := fun q => hij (get_inj E q)
    have := h.no_cross cl p1 q1 hne p3 q3 p2 q2 t1 t2 t3 t4
    unfold slope icept
    rw [left i hi, left j hj]
    exact this
  · rw [darts_rank, darts_rank]
    by_contra k
    rcases Nat.lt_or_eq_of_le (Nat.le_of_not_lt k) with k | k
    · have hd' : isLeft ((selEvents S acc).get d) = true := hd
      have hb' : isLeft ((selEvents S acc).get b) = true := hb
      rw [darts_v, darts_v] at hbd
      rcases before E k with q | ⟨q1, q | q | q⟩
      · rcases hbd with z | z
        · exact lt_asymm q z
        · rw [z.1] at q; exact lt_irrefl _ q
      · rw [hd'] at q; exact absurd q.1 (by simp)
      · rw [hd'] at q; exact absurd q.1 (by simp)
      · rcases hbd with z | z
        · rw [q1] at z; exact lt_irrefl _ z
        · exact lt_asymm q.2.2 z.2
    · have : d = b := _root_.Fin.ext k
      rw [this] at hbd
      rcases hbd with z | z
      · exact lt_irrefl _ z
      · exact lt_irrefl _ z.2

theorem Fin.simple (h : Fin ε op first second full1 full2 R1 R2 stop S M acc)
    (cl : Close ε op first second full1 full2 stop) (d d' : _root_.Fin (selEvents S acc).length)
    (hv : (darts (h.evs cl)).v d = (darts (h.evs cl)).v d')
    (ho : (darts (h.evs cl)).v ((darts (h.evs cl)).opp d) = (darts (h.evs cl)).v ((darts (h.evs cl)).opp d')) : d = d' := by
  set c := ctxOf first second ε with hc
  set E := h.evs cl with hE
  have w := h.wf
  have G := h.geo cl
  have hmem : ∀ i : _root_.Fin (selEvents S acc).length, (selEvents S acc).get i ∈ selEvents S acc := fun i => List.get_mem _ i
  -- same direction
  have hlf : (darts E).lf d = (darts E).lf d' := by
    have key : ∀ {a b : _root_.Fin (selEvents S acc).length}, (darts E).v a = (darts E).v b →
        (darts E).v ((darts E).opp a) = (darts E).v ((darts E).opp b) → (darts E).lf a = true → (darts E).lf b = true := by
      intro a b e1 e2 ha
      by_contra hb
      simp only [Bool.not_eq_true] at hb
      have l1 := G.lt a ha
      have l2 := G.lt ((darts E).opp b) (by rw [G.lf_opp, hb]; rfl)
      rw [G.opp_opp] at l2
      rw [e1, e2] at l1
      exact lt_asymm l1 l2
    cases h1 : (darts E).lf d <;> cases h2 : (darts E).lf d'
    · rfl
    · rw [key hv.symm ho.symm h2] at h1; exact h1.symm
    · rw [key hv ho h1] at h2; exact h2
    · rfl
  apply get_inj E
  refine h.distinct cl (hmem d) (hmem d') hv hlf ?_
  have o1 := G.on d
  have o2 := G.on d'
  have o3 := G.on ((darts E).opp d)
  have o4 := G.on ((darts E).opp d')
  rw [G.kopp, G.copp] at o3 o4
  rw [← hv] at o2
  rw [← ho] at o4
  have hne : (darts E).v d ≠ (darts E).v ((darts E).opp d) := by
    cases hd : (darts E).lf d
    · have := G.lt ((darts E).opp d) (by rw [G.lf_opp, hd]; rfl)
      rw [G.opp_opp] at this
      exact this.ne'
    · exact (G.lt d hd).ne
  have : (slope c S.lin ((selEvents S acc).get d) - slope c S.lin ((selEvents S acc).get d')) *
      ((darts E).v d - (darts E).v ((darts E).opp d)) = 0 := by linear_combination o1 - o2 - o3 + o4
  rcases mul_eq_zero.mp this with z | z
  · linarith
  · exact absurd (by linarith) hne

theorem Fin.graph (h : Fin ε op first second full1 full2 R1 R2 stop S M acc)
    (cl : Close ε op first second full1 full2 stop) :
    (darts (h.evs cl)).Good (sideOf (darts (h.evs cl)) (fun i => slope (ctxOf first second ε) S.lin ((selEvents S acc).get i))
      (fun i => icept (ctxOf first second ε) S.lin ((selEvents S acc).get i))) :=
  (h.geo cl).good (around _) (Assemble.trans _) (h.simple cl)

/-- The recorded events below are selected ones, found before. -/
theorem Fin.below (h : Fin ε op first second full1 full2 R1 R2 stop S M acc)
    (cl : Close ε op first second full1 full2 stop) (e : _root_.Fin (selEvents S acc).length)
    (he : (darts (h.evs cl)).lf e = true) (z : ℕ)
    (hz : S.belowFromResult.getD ((selEvents S acc).get e / 2) none = some z) :
    ∃ i : _root_.Fin (selEvents S acc).length, (selEvents S acc).get i = z ∧ (darts (h.evs cl)).lf i = true ∧ i.val < e.val := by
  set c := ctxOf first second ε with hc
  set E := h.evs cl with hE
  set x := (selEvents S acc).get e with hx
  have w := h.wf
  have hm : x ∈ selEvents S acc := List.get_mem _ e
  obtain ⟨m1, m2, m3⟩ := (mem_selEvents h).mp hm
  have xL : IsL S.lin x := ⟨m1, isLeft_iff.mp he⟩
  obtain ⟨p, hinv⟩ := h.fin.inv
  have B := hinv.wk x z (h.popped xL m2) hz
  have zL := B.pop.1
  have zs : stop (S.lin.start z) = false :=
    h.two.s1.mono.false ((h.good.le_iff (w.memP z zL.1) (w.memP x m1)).mpr B.le) m2
  have zf : flag S.fromResult z = true := by
    rw [h.sel zL zs]
    have := B.det
    rw [sdetects_eq] at this
    have e1 : S.lin.leftFirst z = opB c (S.lin.sid z) := by
      unfold Lin.leftFirst opB
      rw [w.fc]
    rw [← e1]; exact this
  have zm : z ∈ selEvents S acc := (mem_selEvents h).mpr ⟨zL.1, zs, by rw [fromResult_left' zL.2]; exact zf⟩
  obtain ⟨i, hi⟩ := List.mem_iff_get.mp zm
  have il : (darts E).lf i = true := by rw [darts_lf, hi]; exact isLeft_iff.mpr zL.2
  refine ⟨i, hi, il, ?_⟩
  have hne : i ≠ e := fun q => B.ne (by rw [← hi, q])
  refine (h.geo cl).rank i e il he ?_
  rw [darts_v, darts_v]
  have sl : ∀ y, IsL S.lin y → slope c S.lin y = c.K (S.lin.sid y) := fun y hy => by
    unfold slope; rw [toLeft_left (isLeft_iff.mpr hy.2)]
  rcases lt_or_eq_of_le B.le with q | q
  · left; show lx c S.lin ((selEvents S acc).get i) < _; rw [hi]; exact q
  · right
    refine ⟨by rw [hi]; exact q, ?_⟩
    have := B.slope q
    show slope c S.lin _ < slope c S.lin _
    rw [hi, sl z zL, ← hx, sl x xL]
    refine lt_of_le_of_ne this fun k => ?_
    exact B.ne (h.distinct cl zm hm q (by rw [isLeft_iff.mpr zL.2]; exact he.symm) (by rw [sl z zL, sl x xL]; exact k))

end

end Rene.Sweep
