import Verif.Lemmas.Assemble.Events
import Verif.Lemmas.Face.Walk

/-! The loop which traces a contour of a result. -/

namespace Rene.Assemble
open Rene Face

variable {S : Shp} {evs : List ℕ} {v k : ℕ → ℚ}

theorem getD_set {α : Type} {l : List α} {i j : ℕ} {a d : α} (hi : i < l.length) :
    (l.set i a).getD j d = if i = j then a else l.getD j d := by
  rw [List.getD_eq_getElem?_getD, List.getElem?_set]
  by_cases h : i = j
  · subst h; rw [if_pos rfl, if_pos hi, if_pos rfl]; rfl
  · rw [if_neg h, if_neg h, List.getD_eq_getElem?_getD]

section
variable (E : Evs S evs v k)

include E in
theorem startId_lt (i : Fin evs.length) : S.startId (evs.get i) < S.currentId + 1 := by
  obtain ⟨j, h1, h2⟩ := E.id _ (List.get_mem _ i)
  unfold Shp.startId
  rw [h2]
  exact Nat.lt_succ_of_le h1

theorem startId_eq (i j : Fin evs.length) : S.startId (evs.get i) = S.startId (evs.get j) ↔ (darts E).v i = (darts E).v j := by
  rw [darts_v, darts_v, ← E.ids _ (List.get_mem _ i) _ (List.get_mem _ j)]
  obtain ⟨a, h1, h2⟩ := E.id _ (List.get_mem _ i)
  obtain ⟨b, h3, h4⟩ := E.id _ (List.get_mem _ j)
  unfold Shp.startId
  rw [h2, h4]
  simp

theorem endId_eq (i : Fin evs.length) : S.endId (evs.get i) = S.startId (evs.get ((darts E).opp i)) := by
  rw [get_opp]; rfl

theorem end_eq (i : Fin evs.length) : S.lin.end (evs.get i) = S.lin.start (evs.get ((darts E).opp i)) := by
  rw [get_opp]; rfl

theorem start_eq (i j : Fin evs.length) : S.lin.start (evs.get i) = S.lin.start (evs.get j) ↔ (darts E).v i = (darts E).v j :=
  E.start _ (List.get_mem _ i) _ (List.get_mem _ j)

/-- The positions of the starts of the events collected. -/
structure Positions (W s : List (Fin evs.length)) (positions : List (Option ℕ)) : Prop where
  len : positions.length = S.currentId + 1
  at_ : ∀ (idx : ℕ) (h : idx < s.length), positions.getD (S.startId (evs.get s[idx])) none = some idx
  old : ∀ (d : Fin evs.length) (idx : ℕ), positions.getD (S.startId (evs.get d)) none = some idx →
    ∃ x ∈ W, (darts E).v x = (darts E).v d

variable {side : (Fin evs.length → Bool) → Fin evs.length → Bool} {U : Fin evs.length → Bool} {e : Fin evs.length}
  {eventsIds : List (Option ℕ)} {processed : List Bool}

theorem contourLoop_spec (g : (darts E).Good side) (hU : (darts E).Ev U)
    (hI : ∀ i : Fin evs.length, eventsIds.getD (evs.get i) none = some i.val)
    (hp : ∀ i : Fin evs.length, processed.getD i false = !U i) :
    ∀ (fuel : ℕ) (W s : List (Fin evs.length)) (last : Fin evs.length) (positions : List (Option ℕ)),
    WalkInv (darts E) side U e W s → s.getLast? = some last → Positions E W s positions →
    evs.length + 2 ≤ W.length + fuel →
    ∃ s', S.contourLoop evs eventsIds (S.connectivity evs) processed (S.lin.start (evs.get e)) fuel (evs.get last)
        (s.map evs.get) positions = .ok (s'.map evs.get) ∧ IsContour (darts E) side U e s' := by
  intro fuel
  induction fuel with
  | zero =>
    intro W s last positions h _ _ hf
    have := h.nd.length_le_card
    rw [Fintype.card_fin] at this
    omega
  | succ fuel ih =>
    intro W s last positions h hl hP hf
    have hl' : W.getLast? = some last := by rw [← h.last]; exact hl
    have ml : last ∈ W := List.mem_of_getLast? hl'
    have Ul := h.orb last ml
    unfold Shp.contourLoop
    by_cases hend : S.lin.end (evs.get last) = S.lin.start (evs.get e)
    · rw [if_pos hend]
      rw [end_eq E, start_eq E] at hend
      exact ⟨s, rfl, h.final g hU hl hend⟩
    · rw [if_neg hend]
      rw [end_eq E, start_eq E] at hend
      have hUo : U ((darts E).opp last) = true := by rw [hU.opp]; exact Ul.1
      have hnext : Shp.nextEventId processed (S.connectivity evs)
          ((eventsIds.getD (S.lin.opp (evs.get last)) none).getD 0) = some ((darts E).phi U last).val := by
        rw [← get_opp E, hI]
        exact next_id E g hp hUo
      have hget : evs.getD ((darts E).phi U last).val 0 = evs.get ((darts E).phi U last) :=
        List.getD_eq_getElem _ _ ((darts E).phi U last).2
      have hvphi := phi_v g hU Ul.1
      have hidphi : S.startId (evs.get ((darts E).phi U last)) = S.startId (evs.get ((darts E).opp last)) :=
        (startId_eq E _ _).mpr hvphi
      simp only [hnext, hget, endId_eq E]
      by_cases hin : (darts E).v ((darts E).opp last) ∈ s.map (darts E).v
      · -- a loop is cut off
        obtain ⟨b, hb, hbv⟩ := List.mem_map.mp hin
        obtain ⟨s1, s2, rfl⟩ := List.append_of_mem hb
        have hs1 : s1 ≠ [] := by
          rintro rfl
          have := h.shead
          simp at this
          rw [this] at hbv
          exact hend hbv.symm
        have hprev : positions.getD (S.startId (evs.get ((darts E).opp last))) none = some s1.length := by
          have := hP.at_ s1.length (by simp)
          rw [List.getElem_append_right (le_refl _)] at this
          simp only [Nat.sub_self, List.getElem_cons_zero] at this
          rw [← (startId_eq E b _).mpr hbv]
          exact this
        have hlen : s1.length ≠ 0 := fun q => hs1 (List.length_eq_zero_iff.mp q)
        rw [hprev, if_neg (by simpa using hlen)]
        simp only
        have htake : ((s1 ++ b :: s2).map evs.get).take s1.length = s1.map evs.get := by
          rw [← List.map_take, List.take_left]
        rw [htake, ← List.map_singleton, ← List.map_append]
        refine ih (W ++ [(darts E).phi U last]) (s1 ++ [(darts E).phi U last]) _ positions
          (h.cut g hU hl hbv.symm (by rw [hbv]; exact hend)) (by simp) ⟨hP.len, fun idx hidx => ?_, fun d idx hd => ?_⟩ ?_
        · by_cases c : idx < s1.length
          · have := hP.at_ idx (by rw [List.length_append]; omega)
            rw [List.getElem_append_left c] at this ⊢
            exact this
          · have ce : idx = s1.length := by
              rw [List.length_append, List.length_singleton] at hidx
              omega
            subst ce
            rw [List.getElem_append_right (le_refl _)]
            simp only [Nat.sub_self, List.getElem_cons_zero]
            rw [hidphi, hprev]
        · obtain ⟨x, x1, x2⟩ := hP.old d idx hd
          exact ⟨x, List.mem_append_left _ x1, x2⟩
        · rw [List.length_append, List.length_singleton]; omega
      · -- a new vertex
        have hprev : positions.getD (S.startId (evs.get ((darts E).opp last))) none = none := by
          cases hq : positions.getD (S.startId (evs.get ((darts E).opp last))) none with
          | none => rfl
          | some idx =>
            obtain ⟨x, x1, x2⟩ := hP.old _ _ hq
            exact absurd x2.symm (h.rem x x1 (by rw [x2]; exact hin) last Ul (Or.inr hl'))
        rw [hprev, if_neg (by simp)]
        simp only [List.length_map]
        rw [← List.map_singleton, ← List.map_append]
        have hlt : S.startId (evs.get ((darts E).opp last)) < positions.length := by
          rw [hP.len]; exact startId_lt E _
        refine ih (W ++ [(darts E).phi U last]) (s ++ [(darts E).phi U last]) _ _
          (h.push g hU hl hin) (by simp) ⟨by rw [List.length_set]; exact hP.len, fun idx hidx => ?_, fun d idx hd => ?_⟩ ?_
        · rw [getD_set hlt]
          by_cases c : idx < s.length
          · have h1 := hP.at_ idx c
            rw [List.getElem_append_left c]
            rw [if_neg, h1]
            intro q
            rw [startId_eq E] at q
            exact hin (by rw [q]; exact List.mem_map_of_mem (List.getElem_mem c))
          · have ce : idx = s.length := by
              rw [List.length_append, List.length_singleton] at hidx
              omega
            subst ce
            rw [List.getElem_append_right (le_refl _)]
            simp only [Nat.sub_self, List.getElem_cons_zero]
            rw [if_pos hidphi.symm]
        · rw [getD_set hlt] at hd
          by_cases c : S.startId (evs.get ((darts E).opp last)) = S.startId (evs.get d)
          · rw [startId_eq E] at c
            exact ⟨(darts E).phi U last, by simp, by rw [hvphi, c]⟩
          · rw [if_neg c] at hd
            obtain ⟨x, x1, x2⟩ := hP.old d idx hd
            exact ⟨x, List.mem_append_left _ x1, x2⟩
        · rw [List.length_append, List.length_singleton]; omega

/-- Tracing a contour from the first remaining event. -/
theorem contourEvents_spec (g : (darts E).Good side) (hU : (darts E).Ev U)
    (hI : ∀ i : Fin evs.length, eventsIds.getD (evs.get i) none = some i.val)
    (hp : ∀ i : Fin evs.length, processed.getD i false = !U i) (he : U e = true) (hl : (darts E).lf e = true) :
    ∃ s, S.contourEvents evs eventsIds (S.connectivity evs) processed (evs.get e) = .ok (s.map evs.get) ∧
      IsContour (darts E) side U e s := by
  unfold Shp.contourEvents
  rw [darts_lf] at hl
  rw [hl]
  simp only [Bool.not_true, Bool.false_eq_true, if_false]
  have hlt := startId_lt E e
  have hP : Positions E [e] [e] ((List.replicate (S.currentId + 1) none).set (S.startId (evs.get e)) (some 0)) := by
    refine ⟨by rw [List.length_set, List.length_replicate], fun idx hidx => ?_, fun d idx hd => ?_⟩
    · have : idx = 0 := by simpa using hidx
      subst this
      rw [getD_set (by rw [List.length_replicate]; exact hlt)]
      simp
    · rw [getD_set (by rw [List.length_replicate]; exact hlt)] at hd
      by_cases c : S.startId (evs.get e) = S.startId (evs.get d)
      · exact ⟨e, by simp, (startId_eq E _ _).mp c⟩
      · rw [if_neg c, List.getD_eq_getElem?_getD, List.getElem?_replicate] at hd
        split at hd <;> simp at hd
  exact contourLoop_spec E g hU hI hp (evs.length + 1) [e] [e] e _ (WalkInv.start he) rfl hP (by simp; omega)

end

end Rene.Assemble
