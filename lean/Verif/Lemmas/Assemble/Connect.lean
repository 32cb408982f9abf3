import Verif.Model.Shaped
import Mathlib.Data.List.TakeWhile
import Mathlib.Data.List.Pairwise
import Mathlib.Data.List.GetD
import Mathlib.Tactic.Linarith

/-! The successors of events computed by the shaped engine. -/

namespace Rene.Assemble
open Rene

/-- The order of the events of a result. -/
def Before (v k : ℕ → ℚ) (a b : ℕ) : Prop :=
  v a < v b ∨ v a = v b ∧ (isLeft a = false ∧ isLeft b = true ∨ isLeft a = false ∧ isLeft b = false ∧ k b < k a ∨
    isLeft a = true ∧ isLeft b = true ∧ k a < k b)

/-- The events of a result: `v` identifies their starts, `k` is the slope. -/
structure Evs (S : Shp) (evs : List ℕ) (v k : ℕ → ℚ) : Prop where
  nodup : evs.Nodup
  lt : ∀ e ∈ evs, e < S.lin.endpoints.length
  opp : ∀ e ∈ evs, S.lin.opp e ∈ evs
  oppOpp : ∀ e ∈ evs, S.lin.opp (S.lin.opp e) = e
  lf : ∀ e ∈ evs, isLeft (S.lin.opp e) = !isLeft e
  start : ∀ e ∈ evs, ∀ e' ∈ evs, (S.lin.start e = S.lin.start e' ↔ v e = v e')
  id : ∀ e ∈ evs, ∃ i ≤ S.currentId, S.startsIds.getD e none = some i
  ids : ∀ e ∈ evs, ∀ e' ∈ evs, (S.startsIds.getD e none = S.startsIds.getD e' none ↔ v e = v e')
  sorted : evs.Pairwise (Before v k)

/-- The events from `a` to `b` are the ones with a common start, those from `m` are the left ones. -/
structure Blk (evs : List ℕ) (v : ℕ → ℚ) (a m b : ℕ) (w : ℚ) : Prop where
  am : a ≤ m
  mb : m ≤ b
  bn : b ≤ evs.length
  mem : ∀ j < evs.length, (v (evs.getD j 0) = w ↔ a ≤ j ∧ j < b)
  left : ∀ j, a ≤ j → j < b → (isLeft (evs.getD j 0) = true ↔ m ≤ j)

/-- The successor of a position. -/
def nxt (a m b i : ℕ) : ℕ :=
  if i < m then if i + 1 < m then i + 1 else if m = b then a else b - 1
  else if i = m then if m = a then b - 1 else a else i - 1

theorem block_length (o r l : ℕ) : (Shp.connectivityBlock o r l).length = r + l := by
  unfold Shp.connectivityBlock
  rw [List.length_append]
  by_cases hr : r = 0 <;> by_cases hl : l = 0 <;> simp [hr, hl] <;> omega

theorem block_get {o r l i : ℕ} (hi : i < r + l) :
    (Shp.connectivityBlock o r l).getD i 0 = nxt o (o + r) (o + r + l) (o + i) := by
  unfold Shp.connectivityBlock nxt
  by_cases hir : i < r
  · have hr : r ≠ 0 := by omega
    rw [if_neg hr, List.append_assoc, if_pos (show o + i < o + r by omega)]
    by_cases h1 : i + 1 < r
    · rw [if_pos (show o + i + 1 < o + r by omega), List.getD_append _ _ _ _ (by simp; omega)]
      rw [List.getD_eq_getElem _ _ (by simp; omega)]
      simp
    · have e : i = r - 1 := by omega
      rw [if_neg (show ¬ o + i + 1 < o + r by omega), List.getD_append_right _ _ _ _ (by simp; omega)]
      have : i - (List.map (fun i => o + i + 1) (List.range (r - 1))).length = 0 := by simp; omega
      rw [this]
      simp only [List.singleton_append, List.getD_cons_zero]
      by_cases hl : l = 0
      · rw [if_pos hl, if_pos (show o + r = o + r + l by omega)]
      · rw [if_neg hl, if_neg (show ¬ o + r = o + r + l by omega)]
  · have hl : l ≠ 0 := by omega
    simp only [if_neg hl]
    rw [if_neg (show ¬ o + i < o + r by omega)]
    have hlen : (if r = 0 then [] else (List.range (r - 1)).map (fun i => o + i + 1) ++
      [o + r + l - 1]).length = r := by
      by_cases hr : r = 0
      · simp [hr]
      · rw [if_neg hr]; simp; omega
    rw [List.getD_append_right _ _ _ _ (by rw [hlen]; omega), hlen]
    by_cases h1 : i = r
    · subst h1
      rw [Nat.sub_self, List.getD_cons_zero, if_pos rfl]
      by_cases hr : i = 0
      · rw [if_pos hr, if_pos (show o + i = o by omega)]
      · rw [if_neg hr, if_neg (show ¬ o + i = o by omega)]
    · obtain ⟨t, rfl⟩ : ∃ t, i = r + t + 1 := ⟨i - r - 1, by omega⟩
      have : r + t + 1 - r = t + 1 := by omega
      rw [this, List.getD_cons_succ, if_neg (show ¬ o + (r + t + 1) = o + r by omega), List.getD_eq_getElem _ _ (by simp; omega)]
      simp
      omega

theorem dropWhile_head {α : Type} {p : α → Bool} {l : List α} {x : α} {r : List α} (h : l.dropWhile p = x :: r) :
    p x = false := by
  have := List.head?_dropWhile_not p l
  rw [h] at this
  simpa using this

/-- The structure of the loop. -/
theorem loop_spec {S : Shp} {evs : List ℕ} {v k : ℕ → ℚ} (E : Evs S evs v k) :
    ∀ (fuel : ℕ) (pre l : List ℕ), evs = pre ++ l → l.length ≤ fuel → (∀ x ∈ pre, ∀ y ∈ l, v x < v y) →
    (S.connectivityLoop fuel pre.length l).length = l.length ∧
    ∀ i < l.length, ∃ a m b w, a ≤ pre.length + i ∧ pre.length + i < b ∧ Blk evs v a m b w ∧
      (S.connectivityLoop fuel pre.length l).getD i 0 = nxt a m b (pre.length + i) := by
  intro fuel
  induction fuel with
  | zero =>
    intro pre l _ hl _
    have : l = [] := List.length_eq_zero_iff.mp (by omega)
    subst this
    simp [Shp.connectivityLoop]
  | succ fuel ih =>
    intro pre l he hl hsep
    cases l with
    | nil => simp [Shp.connectivityLoop]
    | cons event rest =>
      have hmem : ∀ x ∈ event :: rest, x ∈ evs := fun x hx => by rw [he]; exact List.mem_append_right _ hx
      have hS : (event :: rest).Pairwise (Before v k) := by
        have := E.sorted
        rw [he] at this
        exact (List.pairwise_append.mp this).2.1
      set L := event :: rest with hL
      have hev : event ∈ L := by simp [hL]
      set p : ℕ → Bool := fun x => decide (S.lin.start x = S.lin.start event) && !isLeft x with hp
      set q : ℕ → Bool := fun x => decide (S.lin.start x = S.lin.start event) with hq
      set rights := L.takeWhile p with hr
      set others := L.dropWhile p with ho
      set lefts := others.takeWhile q with hlf
      set others' := others.dropWhile q with ho'
      have e1 : rights ++ others = L := List.takeWhile_append_dropWhile
      have e2 : lefts ++ others' = others := List.takeWhile_append_dropWhile
      have e3 : L = (rights ++ lefts) ++ others' := by rw [List.append_assoc, e2, e1]
      have st : ∀ x ∈ L, (q x = true ↔ v x = v event) := by
        intro x hx
        rw [hq]; simp only [decide_eq_true_iff]
        exact E.start x (hmem x hx) event (hmem event hev)
      have mr : ∀ x ∈ rights, v x = v event ∧ isLeft x = false := by
        intro x hx
        have h1 := List.mem_takeWhile_imp hx
        have h2 : x ∈ L := by rw [← e1]; exact List.mem_append_left _ hx
        rw [hp] at h1
        simp only [Bool.and_eq_true, decide_eq_true_iff, Bool.not_eq_true'] at h1
        exact ⟨(E.start x (hmem x h2) event (hmem event hev)).mp h1.1, h1.2⟩
      have hle : ∀ x ∈ L, v event ≤ v x := by
        intro x hx
        rw [hL] at hx
        rcases List.mem_cons.mp hx with rfl | hx
        · exact le_rfl
        · rcases List.rel_of_pairwise_cons hS hx with h | h
          · exact h.le
          · exact h.1.le
      have ml : ∀ x ∈ lefts, v x = v event ∧ isLeft x = true := by
        intro x hx
        have h1 := List.mem_takeWhile_imp hx
        have h2 : x ∈ others := by rw [← e2]; exact List.mem_append_left _ hx
        have h3 : x ∈ L := by rw [← e1]; exact List.mem_append_right _ h2
        have h4 := (st x h3).mp h1
        refine ⟨h4, ?_⟩
        cases hoe : others with
        | nil => rw [hoe] at h2; simp at h2
        | cons y r =>
          have hy := dropWhile_head (p := p) (l := L) (by rw [← ho]; exact hoe)
          have yq : q y = true := by
            rw [hlf, hoe] at hx
            by_contra c
            rw [List.takeWhile_cons_of_neg c] at hx
            simp at hx
          have yl : isLeft y = true := by
            rw [hp] at hy
            rw [hq] at yq
            simp only at hy yq
            rw [yq] at hy
            simpa using hy
          have yL : y ∈ L := by rw [← e1, hoe]; simp
          have yv := (st y yL).mp yq
          rw [hoe] at h2
          rcases List.mem_cons.mp h2 with rfl | h2
          · exact yl
          · have hP : (y :: r).Pairwise (Before v k) := by
              rw [← hoe]
              exact hS.sublist (List.dropWhile_sublist _)
            rcases List.rel_of_pairwise_cons hP h2 with h | ⟨_, h | h | h⟩
            · rw [yv, h4] at h; exact absurd h (lt_irrefl _)
            · exact h.2
            · rw [yl] at h; exact absurd h.1 (by simp)
            · exact h.2.1
      have mo : ∀ x ∈ others', v event < v x := by
        intro x hx
        have h2 : x ∈ L := by rw [e3]; exact List.mem_append_right _ hx
        cases hoe : others' with
        | nil => rw [hoe] at hx; simp at hx
        | cons y r =>
          have hy := dropWhile_head (p := q) (l := others) (by rw [← ho']; exact hoe)
          have yL : y ∈ L := by rw [e3, hoe]; simp
          have yv : v event < v y := by
            refine lt_of_le_of_ne (hle y yL) fun h => ?_
            rw [(st y yL).mpr h.symm] at hy
            exact absurd hy (by simp)
          rw [hoe] at hx
          rcases List.mem_cons.mp hx with rfl | hx
          · exact yv
          · have hP : (y :: r).Pairwise (Before v k) := by
              rw [← hoe]
              exact hS.sublist ((List.dropWhile_sublist _).trans (List.dropWhile_sublist _))
            rcases List.rel_of_pairwise_cons hP hx with h | h
            · exact yv.trans h
            · rw [← h.1]; exact yv
      have hne : 0 < rights.length + lefts.length := by
        by_contra c
        have h1 : rights ++ lefts = [] := by
          apply List.eq_nil_of_length_eq_zero
          rw [List.length_append]; omega
        rw [h1, List.nil_append] at e3
        have := mo event (by rw [← e3]; exact hev)
        exact lt_irrefl _ this
      have hlen : L.length = rights.length + lefts.length + others'.length := by
        conv_lhs => rw [e3]
        rw [List.length_append, List.length_append]
      have unf : S.connectivityLoop (fuel + 1) pre.length L =
          Shp.connectivityBlock pre.length rights.length lefts.length ++
          S.connectivityLoop fuel (pre.length + rights.length + lefts.length) others' := rfl
      have hpre : (pre ++ (rights ++ lefts)).length = pre.length + rights.length + lefts.length := by
        rw [List.length_append, List.length_append]; omega
      have hsep' : ∀ x ∈ pre ++ (rights ++ lefts), ∀ y ∈ others', v x < v y := by
        intro x hx y hy
        rcases List.mem_append.mp hx with hx | hx
        · exact hsep x hx y (by rw [e3]; exact List.mem_append_right _ hy)
        · have : v x = v event := by
            rcases List.mem_append.mp hx with hx | hx
            · exact (mr x hx).1
            · exact (ml x hx).1
          rw [this]; exact mo y hy
      obtain ⟨i1, i2⟩ := ih (pre ++ (rights ++ lefts)) others' (by rw [List.append_assoc, ← e3]; exact he) (by omega) hsep'
      rw [hpre] at i1 i2
      rw [unf]
      refine ⟨by rw [List.length_append, block_length, i1, hlen], fun i hi => ?_⟩
      by_cases hb : i < rights.length + lefts.length
      · rw [List.getD_append _ _ _ _ (by rw [block_length]; exact hb), block_get hb]
        refine ⟨pre.length, pre.length + rights.length, pre.length + rights.length + lefts.length, v event, by omega,
          by omega, ⟨by omega, by omega, ?_, fun j hj => ?_, fun j h1 h2 => ?_⟩, rfl⟩
        · rw [he, List.length_append, hlen]; omega
        · have hj' : evs.getD j 0 = evs[j] := List.getD_eq_getElem _ _ hj
          rw [he] at hj ⊢
          by_cases c1 : j < pre.length
          · rw [List.getD_append _ _ _ _ c1, List.getD_eq_getElem _ _ c1]
            have := hsep _ (List.getElem_mem c1) event hev
            constructor
            · intro h; rw [h] at this; exact absurd this (lt_irrefl _)
            · intro h; omega
          · rw [List.getD_append_right _ _ _ _ (by omega), e3]
            have hj2 : j - pre.length < L.length := by rw [List.length_append] at hj; omega
            by_cases c2 : j - pre.length < rights.length + lefts.length
            · rw [List.getD_append _ _ _ _ (by rw [List.length_append]; exact c2),
                List.getD_eq_getElem _ _ (by rw [List.length_append]; exact c2)]
              have : v ((rights ++ lefts)[j - pre.length]'(by rw [List.length_append]; exact c2)) = v event := by
                have hm := List.getElem_mem (l := rights ++ lefts) (n := j - pre.length) (by rw [List.length_append]; exact c2)
                rcases List.mem_append.mp hm with hm | hm
                · exact (mr _ hm).1
                · exact (ml _ hm).1
              rw [this]
              constructor
              · intro _; omega
              · intro _; rfl
            · rw [List.getD_append_right _ _ _ _ (by rw [List.length_append]; omega), List.length_append]
              have c3 : j - pre.length - (rights.length + lefts.length) < others'.length := by omega
              rw [List.getD_eq_getElem _ _ c3]
              have := mo _ (List.getElem_mem c3)
              constructor
              · intro h; rw [h] at this; exact absurd this (lt_irrefl _)
              · intro h; omega
        · rw [he, List.getD_append_right _ _ _ _ h1, e3,
            List.getD_append _ _ _ _ (by rw [List.length_append]; omega)]
          by_cases c2 : j - pre.length < rights.length
          · rw [List.getD_append _ _ _ _ c2, List.getD_eq_getElem _ _ c2, (mr _ (List.getElem_mem c2)).2]
            simp; omega
          · have c3 : j - pre.length - rights.length < lefts.length := by omega
            rw [List.getD_append_right _ _ _ _ (by omega), List.getD_eq_getElem _ _ c3, (ml _ (List.getElem_mem c3)).2]
            simp; omega
      · obtain ⟨a, m, b, w, k1, k2, k3, k4⟩ := i2 (i - (rights.length + lefts.length)) (by omega)
        have e5 : pre.length + rights.length + lefts.length + (i - (rights.length + lefts.length)) = pre.length + i := by
          omega
        rw [e5] at k1 k2 k4
        refine ⟨a, m, b, w, k1, k2, k3, ?_⟩
        rw [List.getD_append_right _ _ _ _ (by rw [block_length]; omega), block_length, k4]

theorem conn_spec {S : Shp} {evs : List ℕ} {v k : ℕ → ℚ} (E : Evs S evs v k) :
    (S.connectivity evs).length = evs.length ∧
    ∀ i < evs.length, ∃ a m b w, a ≤ i ∧ i < b ∧ Blk evs v a m b w ∧ (S.connectivity evs).getD i 0 = nxt a m b i := by
  have := loop_spec E evs.length [] evs rfl le_rfl (by simp)
  simpa [Shp.connectivity] using this

end Rene.Assemble
