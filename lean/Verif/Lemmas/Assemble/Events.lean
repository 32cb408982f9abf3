import Verif.Lemmas.Assemble.Connect
import Verif.Lemmas.Face.Around

/-! The events of a result as half-edges. -/

namespace Rene.Assemble
open Rene Face

variable {S : Shp} {evs : List ℕ} {v k : ℕ → ℚ}

theorem Blk.unique {a m b a' m' b' : ℕ} {w : ℚ} {i : ℕ} (h : Blk evs v a m b w) {w' : ℚ} (h' : Blk evs v a' m' b' w')
    (h1 : a ≤ i) (h2 : i < b) (h3 : a' ≤ i) (h4 : i < b') : a = a' ∧ m = m' ∧ b = b' := by
  have b1 := h.bn
  have b2 := h'.bn
  have e1 := (h.mem i (by omega)).mpr ⟨h1, h2⟩
  have e2 := (h'.mem i (by omega)).mpr ⟨h3, h4⟩
  have ee : w = w' := e1.symm.trans e2
  subst ee
  have key : ∀ j < evs.length, (a ≤ j ∧ j < b ↔ a' ≤ j ∧ j < b') := fun j hj => (h.mem j hj).symm.trans (h'.mem j hj)
  have k1 := key a (by omega)
  have k2 := key a' (by omega)
  have k3 := key (b - 1) (by omega)
  have k4 := key (b' - 1) (by omega)
  have ea : a = a' := by omega
  have eb : b = b' := by omega
  subst ea eb
  refine ⟨rfl, ?_, rfl⟩
  have m1 := h.am
  have m2 := h.mb
  have m3 := h'.am
  have m4 := h'.mb
  by_contra hne
  rcases Nat.lt_or_gt_of_ne hne with k | k
  · have := (h.left m m1 (by omega)).symm.trans (h'.left m m1 (by omega))
    omega
  · have := (h.left m' m3 (by omega)).symm.trans (h'.left m' m3 (by omega))
    omega

theorem nxt_mem {a m b i : ℕ} (h1 : a ≤ m) (h2 : m ≤ b) (h3 : a ≤ i) (h4 : i < b) : a ≤ nxt a m b i ∧ nxt a m b i < b := by
  unfold nxt
  split_ifs <;> omega

/-- The position after `s` steps from `a`. -/
def cyc (a m b s : ℕ) : ℕ := if s < m - a then a + s else b - 1 - (s - (m - a))

theorem cyc_next {a m b s : ℕ} (h1 : a ≤ m) (h2 : m ≤ b) (hs : s < b - a) :
    nxt a m b (cyc a m b s) = cyc a m b (if s + 1 = b - a then 0 else s + 1) := by
  unfold nxt cyc
  split_ifs <;> omega

theorem cyc_surj {a m b i : ℕ} (h1 : a ≤ m) (h2 : m ≤ b) (h3 : a ≤ i) (h4 : i < b) : ∃ s < b - a, cyc a m b s = i := by
  by_cases h : i < m
  · exact ⟨i - a, by omega, by unfold cyc; split_ifs <;> omega⟩
  · exact ⟨(m - a) + (b - 1 - i), by omega, by unfold cyc; split_ifs <;> omega⟩

theorem cyc_iter {a m b : ℕ} (h1 : a ≤ m) (h2 : m ≤ b) {s : ℕ} (hs : s < b - a) (t : ℕ) :
    (nxt a m b)^[t] (cyc a m b s) = cyc a m b ((s + t) % (b - a)) := by
  induction t with
  | zero => rw [Function.iterate_zero, id, Nat.add_zero, Nat.mod_eq_of_lt hs]
  | succ t ih =>
    rw [Function.iterate_succ_apply', ih, cyc_next h1 h2 (Nat.mod_lt _ (by omega))]
    congr 1
    rw [← Nat.add_assoc, Nat.add_mod (s + t) 1]
    have := Nat.mod_lt (s + t) (show 0 < b - a by omega)
    by_cases h : (s + t) % (b - a) + 1 = b - a
    · rw [if_pos h]
      by_cases h' : b - a = 1
      · rw [h', Nat.mod_one]
      · rw [Nat.mod_eq_of_lt (show 1 < b - a by omega), h, Nat.mod_self]
    · rw [if_neg h, Nat.mod_eq_of_lt (show 1 < b - a by omega), Nat.mod_eq_of_lt (show (s + t) % (b - a) + 1 < b - a by omega)]

theorem cyc_reach {a m b i j : ℕ} (h1 : a ≤ m) (h2 : m ≤ b) (h3 : a ≤ i) (h4 : i < b) (h5 : a ≤ j) (h6 : j < b) :
    ∃ t, (nxt a m b)^[t] i = j := by
  obtain ⟨s, hs, rfl⟩ := cyc_surj h1 h2 h3 h4
  obtain ⟨r, hr, rfl⟩ := cyc_surj h1 h2 h5 h6
  by_cases h : s ≤ r
  · refine ⟨r - s, ?_⟩
    rw [cyc_iter h1 h2 hs, Nat.add_sub_cancel' h, Nat.mod_eq_of_lt hr]
  · refine ⟨b - a - s + r, ?_⟩
    rw [cyc_iter h1 h2 hs]
    have : s + (b - a - s + r) = r + (b - a) := by omega
    rw [this, Nat.add_mod_right, Nat.mod_eq_of_lt hr]

theorem cyc_period {a m b i : ℕ} (h1 : a ≤ m) (h2 : m ≤ b) (h3 : a ≤ i) (h4 : i < b) :
    (nxt a m b)^[b - a] i = i := by
  obtain ⟨s, hs, rfl⟩ := cyc_surj h1 h2 h3 h4
  rw [cyc_iter h1 h2 hs, Nat.add_mod_right, Nat.mod_eq_of_lt hs]

theorem iter_mem {a m b i : ℕ} (h1 : a ≤ m) (h2 : m ≤ b) (h3 : a ≤ i) (h4 : i < b) (t : ℕ) :
    a ≤ (nxt a m b)^[t] i ∧ (nxt a m b)^[t] i < b := by
  induction t with
  | zero => exact ⟨h3, h4⟩
  | succ t ih => rw [Function.iterate_succ_apply']; exact nxt_mem h1 h2 ih.1 ih.2

theorem Evs.conn_lt (E : Evs S evs v k) (i : Fin evs.length) : (S.connectivity evs).getD i 0 < evs.length := by
  obtain ⟨a, m, b, w, h1, h2, h3, h4⟩ := (conn_spec E).2 i i.2
  rw [h4]
  exact lt_of_lt_of_le (nxt_mem h3.am h3.mb h1 h2).2 h3.bn

/-- The half-edges. -/
def darts (E : Evs S evs v k) : Darts (Fin evs.length) where
  opp i := ⟨evs.idxOf (S.lin.opp (evs.get i)), List.idxOf_lt_length_of_mem (E.opp _ (List.get_mem _ i))⟩
  nx i := ⟨(S.connectivity evs).getD i 0, E.conn_lt i⟩
  v i := v (evs.get i)
  lf i := isLeft (evs.get i)
  rank i := i.val

variable (E : Evs S evs v k)

theorem darts_v (i : Fin evs.length) : (darts E).v i = v (evs.get i) := rfl
theorem darts_lf (i : Fin evs.length) : (darts E).lf i = isLeft (evs.get i) := rfl
theorem darts_rank (i : Fin evs.length) : (darts E).rank i = i.val := rfl
theorem darts_nx (i : Fin evs.length) : ((darts E).nx i).val = (S.connectivity evs).getD i 0 := rfl

theorem get_opp (i : Fin evs.length) : (evs.get ((darts E).opp i)) = S.lin.opp (evs.get i) := by
  exact List.getElem_idxOf _

include E in
theorem get_inj {i j : Fin evs.length} (h : (evs.get i) = (evs.get j)) : i = j :=
  Fin.ext ((List.Nodup.getElem_inj_iff E.nodup).mp h)

theorem darts_opp_opp (i : Fin evs.length) : (darts E).opp ((darts E).opp i) = i := by
  apply get_inj E
  rw [get_opp, get_opp, E.oppOpp _ (List.get_mem _ i)]

theorem darts_lf_opp (i : Fin evs.length) : (darts E).lf ((darts E).opp i) = !(darts E).lf i := by
  rw [darts_lf, darts_lf, get_opp, E.lf _ (List.get_mem _ i)]

theorem getD_get (i : Fin evs.length) : evs.getD i 0 = (evs.get i) := List.getD_eq_getElem _ _ i.2

/-- The events which start together. -/
theorem exists_block (i : Fin evs.length) : ∃ a m b, a ≤ m ∧ m ≤ b ∧ a ≤ i.val ∧ i.val < b ∧ b ≤ evs.length ∧
    (∀ j : Fin evs.length, (darts E).v j = (darts E).v i ↔ a ≤ j.val ∧ j.val < b) ∧
    (∀ j : Fin evs.length, a ≤ j.val → j.val < b → ((darts E).lf j = true ↔ m ≤ j.val)) ∧
    (∀ j : Fin evs.length, a ≤ j.val → j.val < b → ((darts E).nx j).val = nxt a m b j.val) := by
  obtain ⟨a, m, b, w, h1, h2, h3, h4⟩ := (conn_spec E).2 i i.2
  have hw := (h3.mem i i.2).mpr ⟨h1, h2⟩
  rw [getD_get] at hw
  refine ⟨a, m, b, h3.am, h3.mb, h1, h2, h3.bn, fun j => ?_, fun j j1 j2 => ?_, fun j j1 j2 => ?_⟩
  · rw [darts_v, darts_v, hw, ← h3.mem j j.2, getD_get]
  · rw [darts_lf, ← getD_get, h3.left j j1 j2]
  · obtain ⟨a', m', b', w', k1, k2, k3, k4⟩ := (conn_spec E).2 j j.2
    obtain ⟨e1, e2, e3⟩ := h3.unique k3 j1 j2 k1 k2
    rw [darts_nx, k4, e1, e2, e3]

include E in
theorem before {i j : Fin evs.length} (h : i.val < j.val) : Before v k (evs.get i) (evs.get j) :=
  List.pairwise_iff_getElem.mp E.sorted i j i.2 j.2 h

theorem right_iff {i j : Fin evs.length} (hi : (darts E).lf i = false) (hj : (darts E).lf j = false)
    (hv : (darts E).v i = (darts E).v j) : k (evs.get i) < k (evs.get j) ↔ j.val < i.val := by
  rw [darts_lf] at hi hj
  rw [darts_v, darts_v] at hv
  have key : ∀ {i j : Fin evs.length}, isLeft (evs.get i) = false → isLeft (evs.get j) = false → v (evs.get i) = v (evs.get j) →
      i.val < j.val → k (evs.get j) < k (evs.get i) := by
    intro i j hi hj hv h
    rcases before E h with b | ⟨_, b | b | b⟩
    · rw [hv] at b; exact absurd b (lt_irrefl _)
    · rw [hj] at b; exact absurd b.2 (by simp)
    · exact b.2.2
    · rw [hi] at b; exact absurd b.1 (by simp)
  constructor
  · intro h
    rcases lt_trichotomy i.val j.val with c | c | c
    · exact absurd h (lt_asymm (key hi hj hv c))
    · rw [Fin.ext c] at h; exact absurd h (lt_irrefl _)
    · exact c
  · exact key hj hi hv.symm

theorem left_iff {i j : Fin evs.length} (hi : (darts E).lf i = true) (hj : (darts E).lf j = true)
    (hv : (darts E).v i = (darts E).v j) : k (evs.get i) < k (evs.get j) ↔ i.val < j.val := by
  rw [darts_lf] at hi hj
  rw [darts_v, darts_v] at hv
  have key : ∀ {i j : Fin evs.length}, isLeft (evs.get i) = true → isLeft (evs.get j) = true → v (evs.get i) = v (evs.get j) →
      i.val < j.val → k (evs.get i) < k (evs.get j) := by
    intro i j hi hj hv h
    rcases before E h with b | ⟨_, b | b | b⟩
    · rw [hv] at b; exact absurd b (lt_irrefl _)
    · rw [hi] at b; exact absurd b.1 (by simp)
    · rw [hj] at b; exact absurd b.2.1 (by simp)
    · exact b.2.2
  constructor
  · intro h
    rcases lt_trichotomy i.val j.val with c | c | c
    · exact c
    · rw [Fin.ext c] at h; exact absurd h (lt_irrefl _)
    · exact absurd h (lt_asymm (key hj hi hv.symm c))
  · exact key hi hj hv

/-- The order around the vertices. -/
theorem around : Around (darts E) (fun i => k (evs.get i)) := by
  have hbool : ∀ b : Bool, b = false ↔ ¬ b = true := by intro b; cases b <;> simp
  constructor
  · intro d
    obtain ⟨a, m, b, am, mb, ad, db, _, hv, hl, hn⟩ := exists_block E d
    have := nxt_mem am mb ad db
    rw [hv, hn d ad db]; exact this
  all_goals
    intro d hd hx
    obtain ⟨a, m, b, am, mb, ad, db, bn, hv, hl, hn⟩ := exists_block E d
    have hm := nxt_mem am mb ad db
    have hnd := hn d ad db
    have xv : (darts E).v ((darts E).nx d) = (darts E).v d := by rw [hv, hnd]; exact hm
    have x1 : a ≤ ((darts E).nx d).val := by rw [hnd]; exact hm.1
    have x2 : ((darts E).nx d).val < b := by rw [hnd]; exact hm.2
    have hd' := hd
    have hx' := hx
    simp only [hbool, hl d ad db, hl _ x1 x2, hnd] at hd' hx'
  · -- both to the left
    by_cases c : d.val + 1 < m
    · left
      have e : nxt a m b d = d.val + 1 := by unfold nxt; split_ifs <;> omega
      intro j j1 j2
      rw [right_iff E hx j1 (xv.trans j2.symm), right_iff E hd j1 j2.symm, hnd, e, Fin.ext_iff]
      omega
    · right
      have e : nxt a m b d = a := by revert hx'; unfold nxt; split_ifs <;> omega
      have mbe : m = b := by
        by_contra h
        revert hx'; unfold nxt; split_ifs <;> omega
      intro j hj
      have hj' := (hv j).mp hj
      have jl : (darts E).lf j = false := by rw [hbool, hl j hj'.1 hj'.2]; omega
      refine ⟨jl, ?_, ?_⟩
      · rw [right_iff E hx jl (xv.trans hj.symm), hnd, e]; omega
      · rw [right_iff E hd jl hj.symm, Fin.ext_iff]; omega
  · have e : d.val + 1 = m ∧ nxt a m b d = b - 1 := by
      revert hx'; unfold nxt; split_ifs <;> omega
    intro j hj
    have hj' := (hv j).mp hj
    refine ⟨fun jl => ?_, fun jl => ?_⟩
    · have jl' := jl
      rw [hbool, hl j hj'.1 hj'.2] at jl'
      rw [right_iff E hd jl hj.symm, Fin.ext_iff]; omega
    · rw [left_iff E jl hx (hj.trans xv.symm), Fin.ext_iff, hnd, e.2]; omega
  · by_cases c : d.val = m
    · right
      have ma : m = a := by
        by_contra h
        revert hx'; unfold nxt; split_ifs <;> omega
      have e : nxt a m b d = b - 1 := by unfold nxt; split_ifs <;> omega
      intro j hj
      have hj' := (hv j).mp hj
      have jl : (darts E).lf j = true := by rw [hl j hj'.1 hj'.2]; omega
      refine ⟨jl, ?_, ?_⟩
      · rw [left_iff E jl hd hj]; omega
      · rw [left_iff E jl hx (hj.trans xv.symm), Fin.ext_iff, hnd, e]; omega
    · left
      have e : nxt a m b d = d.val - 1 := by unfold nxt; split_ifs <;> omega
      intro j j1 j2
      rw [left_iff E j1 hd j2, left_iff E j1 hx (j2.trans xv.symm), hnd, e, Fin.ext_iff, hnd, e]
      omega
  · have e : d.val = m ∧ nxt a m b d = a := by
      revert hx'; unfold nxt; split_ifs <;> omega
    intro j hj
    have hj' := (hv j).mp hj
    refine ⟨fun jl => ?_, fun jl => ?_⟩
    · have jl' := jl
      rw [hl j hj'.1 hj'.2] at jl'
      rw [left_iff E jl hd hj]; omega
    · rw [right_iff E hx jl (xv.trans hj.symm), hnd, e.2]; omega

theorem iter_val {i : Fin evs.length} {a m b : ℕ} (am : a ≤ m) (mb : m ≤ b) (ad : a ≤ i.val) (db : i.val < b)
    (hn : ∀ j : Fin evs.length, a ≤ j.val → j.val < b → ((darts E).nx j).val = nxt a m b j.val) (t : ℕ) :
    ((darts E).nx^[t] i).val = (nxt a m b)^[t] i.val := by
  induction t with
  | zero => rfl
  | succ t ih =>
    have := iter_mem am mb ad db t
    rw [← ih] at this
    rw [Function.iterate_succ_apply', Function.iterate_succ_apply', hn _ this.1 this.2, ih]

theorem trans (d d' : Fin evs.length) (h : (darts E).v d = (darts E).v d') : ∃ m, (darts E).nx^[m] d = d' := by
  obtain ⟨a, m, b, am, mb, ad, db, _, hv, hl, hn⟩ := exists_block E d
  have hd' := (hv d').mp h.symm
  obtain ⟨t, ht⟩ := cyc_reach am mb ad db hd'.1 hd'.2
  exact ⟨t, Fin.ext (by rw [iter_val E am mb ad db hn, ht])⟩

theorem period (d : Fin evs.length) : ∃ L, 0 < L ∧ L ≤ evs.length ∧ (darts E).nx^[L] d = d := by
  obtain ⟨a, m, b, am, mb, ad, db, bn, hv, hl, hn⟩ := exists_block E d
  exact ⟨b - a, by omega, by omega, Fin.ext (by rw [iter_val E am mb ad db hn, cyc_period am mb ad db])⟩

/-- The successor among the remaining events. -/
theorem next_id {side : (Fin evs.length → Bool) → Fin evs.length → Bool} (g : (darts E).Good side) {U : Fin evs.length → Bool}
    {processed : List Bool} (hU : ∀ i : Fin evs.length, processed.getD i false = !U i) {d : Fin evs.length}
    (hd : U d = true) : Shp.nextEventId processed (S.connectivity evs) d = some ((darts E).next U d).val := by
  obtain ⟨m, h1, h2, h3⟩ := g.next_spec hd
  obtain ⟨L, L1, L2, L3⟩ := period E d
  have hm : m + 1 ≤ L := by
    by_contra c
    have := h3 (L - 1) (by omega)
    rw [show L - 1 + 1 = L by omega, L3, hd] at this
    exact absurd this (by simp)
  have hne : ∀ j < m, (darts E).nx^[j + 1] d ≠ d := by
    intro j hj e
    have := h3 j hj
    rw [e, hd] at this
    exact absurd this (by simp)
  have key : ∀ t ≤ m, ∀ fuel, t < fuel →
      Shp.nextEventIdFrom processed (S.connectivity evs) d fuel ((darts E).nx^[m - t] d).val =
        some ((darts E).nx^[m + 1] d).val := by
    intro t
    induction t with
    | zero =>
      intro _ fuel hf
      cases fuel with
      | zero => omega
      | succ fuel =>
        unfold Shp.nextEventIdFrom
        simp only
        rw [← darts_nx E, ← Function.iterate_succ_apply' (darts E).nx, Nat.sub_zero, hU, h2]
        rfl
    | succ t ih =>
      intro ht fuel hf
      cases fuel with
      | zero => omega
      | succ fuel =>
        unfold Shp.nextEventIdFrom
        simp only
        rw [← darts_nx E, ← Function.iterate_succ_apply' (darts E).nx, hU, h3 (m - (t + 1)) (by omega)]
        simp only [Bool.not_false, Bool.not_true, Bool.false_eq_true, if_false]
        rw [if_neg (fun e => hne (m - (t + 1)) (by omega) (Fin.ext e))]
        have e : m - (t + 1) + 1 = m - t := by omega
        rw [Nat.succ_eq_add_one, e]
        exact ih (by omega) fuel (by omega)
  rw [h1]
  unfold Shp.nextEventId
  rw [(conn_spec E).1]
  have := key m le_rfl evs.length (by omega)
  rwa [Nat.sub_self] at this

end Rene.Assemble
