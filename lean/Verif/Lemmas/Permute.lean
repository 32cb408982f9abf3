import Verif.Model.Helpers
import Mathlib.Data.List.Permutation
import Mathlib.Data.List.Nodup
import Mathlib.Data.Nat.Factorial.Basic

/-! The seeded permutation. -/

namespace Rene

variable {α β : Type}

theorem swapAt_of_lt {l : List α} {i j : Nat} (hi : i < l.length) (hj : j < l.length) :
    swapAt l i j = (l.set i l[j]).set j l[i] := by
  simp [swapAt, List.getElem?_eq_getElem hi, List.getElem?_eq_getElem hj]

theorem length_swapAt (l : List α) (i j : Nat) : (swapAt l i j).length = l.length := by
  unfold swapAt
  split <;> simp

theorem swapAt_map (f : α → β) (l : List α) (i j : Nat) : swapAt (l.map f) i j = (swapAt l i j).map f := by
  unfold swapAt
  rw [List.getElem?_map, List.getElem?_map]
  rcases h1 : l[i]? with _ | a <;> rcases h2 : l[j]? with _ | b <;> simp [List.map_set]

theorem swapAt_perm (l : List α) (i j : Nat) : (swapAt l i j).Perm l := by
  unfold swapAt
  rcases h1 : l[i]? with _ | a <;> rcases h2 : l[j]? with _ | b <;> simp only [List.Perm.refl]
  obtain ⟨hi, rfl⟩ := List.getElem?_eq_some_iff.mp h1
  obtain ⟨hj, rfl⟩ := List.getElem?_eq_some_iff.mp h2
  exact List.set_set_perm hi hj

theorem permuteLoop_perm (k seed : Nat) (l : List α) : (permuteLoop k seed l).Perm l := by
  induction k generalizing seed l with
  | zero => exact List.Perm.refl _
  | succ k ih => exact (ih _ _).trans (swapAt_perm _ _ _)

theorem permuteLoop_map (f : α → β) (k seed : Nat) (l : List α) :
    permuteLoop k seed (l.map f) = (permuteLoop k seed l).map f := by
  induction k generalizing seed l with
  | zero => rfl
  | succ k ih => rw [permuteLoop, swapAt_map, ih, permuteLoop]

/-- Positions from `k` on are not touched by the last `k` rounds. -/
theorem permuteLoop_fixed {k seed : Nat} {l : List α} (hk : k ≤ l.length) {i : Nat} (hi : k ≤ i) :
    (permuteLoop k seed l)[i]? = l[i]? := by
  induction k generalizing seed l with
  | zero => rfl
  | succ k ih =>
    rw [permuteLoop, ih (by rw [length_swapAt]; omega) (by omega)]
    have h1 : seed % (k + 1) < l.length := lt_of_lt_of_le (Nat.mod_lt _ (by omega)) hk
    rw [swapAt_of_lt h1 (by omega)]
    have := Nat.mod_lt seed (show 0 < k + 1 by omega)
    rw [List.getElem?_set_ne (by omega), List.getElem?_set_ne (by omega)]

theorem permuteLoop_inj {k : Nat} {l : List α} (hn : l.Nodup) (hk : k ≤ l.length) {s t : Nat}
    (hs : s < k.factorial) (ht : t < k.factorial) (h : permuteLoop k s l = permuteLoop k t l) : s = t := by
  induction k generalizing s t l with
  | zero => simp at hs ht; omega
  | succ k ih =>
    have hs' := Nat.mod_lt s (show 0 < k + 1 by omega)
    have ht' := Nat.mod_lt t (show 0 < k + 1 by omega)
    have e1 : s % (k + 1) < l.length := by omega
    have e2 : t % (k + 1) < l.length := by omega
    have ek : k < l.length := by omega
    -- the last position fixes the remainder
    have hm : s % (k + 1) = t % (k + 1) := by
      have := congrArg (fun m => m[k]?) h
      simp only [permuteLoop] at this
      rw [permuteLoop_fixed (by rw [length_swapAt]; omega) le_rfl,
        permuteLoop_fixed (by rw [length_swapAt]; omega) le_rfl, swapAt_of_lt e1 ek, swapAt_of_lt e2 ek,
        List.getElem?_set_self (by simpa using ek), List.getElem?_set_self (by simpa using ek)] at this
      exact (hn.getElem_inj_iff).mp (Option.some.inj this)
    have hq : s / (k + 1) = t / (k + 1) := by
      rw [permuteLoop, permuteLoop, hm] at h
      refine ih ((swapAt_perm l _ _).nodup_iff.mpr hn) (by rw [length_swapAt]; omega) ?_ ?_ h
      · rw [Nat.div_lt_iff_lt_mul (by omega)]; rw [Nat.factorial_succ] at hs; rw [mul_comm]; exact hs
      · rw [Nat.div_lt_iff_lt_mul (by omega)]; rw [Nat.factorial_succ] at ht; rw [mul_comm]; exact ht
    rw [← Nat.div_add_mod s (k + 1), ← Nat.div_add_mod t (k + 1), hm, hq]

theorem permute_inj {l : List α} (hn : l.Nodup) {s t : Nat} (hs : s < l.length.factorial)
    (ht : t < l.length.factorial) (h : permute l s = permute l t) : s = t :=
  permuteLoop_inj hn le_rfl hs ht h

theorem permute_surj_nodup [DecidableEq α] {l r : List α} (hn : l.Nodup) (h : r.Perm l) :
    ∃ s < l.length.factorial, permute l s = r := by
  have hnd : ((List.range l.length.factorial).map (permute l)).Nodup := by
    refine List.Nodup.map_on ?_ List.nodup_range
    intro x hx y hy e
    exact permute_inj hn (List.mem_range.mp hx) (List.mem_range.mp hy) e
  have hsub : (List.range l.length.factorial).map (permute l) ⊆ l.permutations := by
    intro x hx
    obtain ⟨s, -, rfl⟩ := List.mem_map.mp hx
    exact List.mem_permutations.mpr (permuteLoop_perm _ _ _)
  have hp := (List.subperm_of_subset hnd hsub).perm_of_length_le (by
    rw [List.length_permutations, List.length_map, List.length_range])
  have : r ∈ (List.range l.length.factorial).map (permute l) :=
    hp.mem_iff.mpr (List.mem_permutations.mpr h)
  obtain ⟨s, hs, e⟩ := List.mem_map.mp this
  exact ⟨s, List.mem_range.mp hs, e⟩

theorem permute_surj {l r : List α} (h : r.Perm l) : ∃ s < l.length.factorial, permute l s = r := by
  have hl : l = (List.finRange l.length).map l.get := by simp
  -- lift the rearrangement to positions
  have key : ∀ {m : List (Fin l.length)} {r : List α}, r.Perm (m.map l.get) → ∃ m' : List (Fin l.length), m'.Perm m ∧ m'.map l.get = r := by
    intro m r hr
    generalize hx : m.map l.get = x at hr
    induction hr generalizing m with
    | nil => exact ⟨[], by rw [List.map_eq_nil_iff.mp hx], rfl⟩
    | @cons a l1 l2 hp ih =>
      rcases m with _ | ⟨i, m⟩
      · simp at hx
      · simp only [List.map_cons, List.cons.injEq] at hx
        obtain ⟨m', h1, h2⟩ := ih hx.2
        exact ⟨i :: m', h1.cons _, by rw [List.map_cons, h2, hx.1]⟩
    | swap a b t =>
      rcases m with _ | ⟨i, _ | ⟨j, m⟩⟩
      · simp at hx
      · simp at hx
      · simp only [List.map_cons, List.cons.injEq] at hx
        exact ⟨j :: i :: m, List.Perm.swap _ _ _, by simp only [List.map_cons, hx.1, hx.2.1, hx.2.2]⟩
    | trans _ _ i1 i2 =>
      obtain ⟨m', h1, h2⟩ := i2 hx
      obtain ⟨m'', h3, h4⟩ := i1 h2
      exact ⟨m'', h3.trans h1, h4⟩
  obtain ⟨m', h1, h2⟩ := key (m := List.finRange l.length) (r := r) (h.trans (by rw [← hl]))
  obtain ⟨s, hs, e⟩ := permute_surj_nodup (List.nodup_finRange _) h1
  rw [List.length_finRange] at hs
  refine ⟨s, hs, ?_⟩
  have : permute l s = (permute (List.finRange l.length) s).map l.get := by
    unfold permute
    rw [List.length_finRange, ← permuteLoop_map, ← hl]
  rw [this, e, h2]

end Rene
