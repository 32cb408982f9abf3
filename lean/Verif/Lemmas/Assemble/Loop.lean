import Verif.Lemmas.Assemble.Contour
import Verif.Lemmas.Face.Nest

/-! The loop of the assembly of a result. -/

namespace Rene.Assemble
open Rene Face

variable {S : Shp} {evs : List ℕ} {v k : ℕ → ℚ}

theorem getD_replicate {α : Type} {n j : ℕ} {a : α} : (List.replicate n a).getD j a = a := by
  rw [List.getD_eq_getElem?_getD, List.getElem?_replicate]
  split <;> rfl

theorem getD_snoc {α : Type} {l : List α} {a d : α} {j : ℕ} :
    (l ++ [a]).getD j d = if j = l.length then a else l.getD j d := by
  by_cases h : j < l.length
  · rw [List.getD_append _ _ _ _ h, if_neg (by omega)]
  · rw [List.getD_append_right _ _ _ _ (by omega)]
    by_cases h' : j = l.length
    · subst h'; simp
    · rw [if_neg h', List.getD_eq_default _ _ (by simp; omega), List.getD_eq_default _ _ (by omega)]

theorem eventsIds_aux : ∀ (l : List ℕ) (o : ℕ) (ids : List (Option ℕ)), l.Nodup → (∀ e ∈ l, e < ids.length) →
    (∀ e, e ∉ l → ((l.zipIdx o).foldl (fun ids p => ids.set p.1 (some p.2)) ids).getD e none = ids.getD e none) ∧
    ∀ (i : ℕ) (h : i < l.length), ((l.zipIdx o).foldl (fun ids p => ids.set p.1 (some p.2)) ids).getD l[i] none =
      some (o + i) := by
  intro l
  induction l with
  | nil => intro o ids _ _; simp
  | cons x l ih =>
    intro o ids hn hl
    rw [List.nodup_cons] at hn
    have hx := hl x (by simp)
    obtain ⟨k1, k2⟩ := ih (o + 1) (ids.set x (some o)) hn.2 fun e he => by
      rw [List.length_set]; exact hl e (List.mem_cons_of_mem _ he)
    rw [List.zipIdx_cons, List.foldl_cons]
    refine ⟨fun e he => ?_, fun i hi => ?_⟩
    · rw [List.mem_cons, not_or] at he
      rw [k1 e he.2, getD_set hx, if_neg (fun q => he.1 q.symm)]
    · cases i with
      | zero => rw [List.getElem_cons_zero, k1 x hn.1, getD_set hx, if_pos rfl]; rfl
      | succ i =>
        rw [List.getElem_cons_succ, k2 i (by simpa using hi)]
        congr 1; omega

theorem eventsIds_get (E : Evs S evs v k) (i : Fin evs.length) :
    (Shp.toEventsIds S.lin.endpoints.length evs).getD (evs.get i) none = some i.val := by
  have := (eventsIds_aux evs 0 (List.replicate S.lin.endpoints.length none) E.nodup
    (fun e he => by rw [List.length_replicate]; exact E.lt e he)).2 i i.2
  rw [Nat.zero_add] at this
  exact this

variable (E : Evs S evs v k) {eventsIds : List (Option ℕ)}

/-- What is recorded about the events of a contour. -/
theorem processContour_spec (hI : ∀ i : Fin evs.length, eventsIds.getD (evs.get i) none = some i.val) (cid : ℕ) :
    ∀ (l : List (Fin evs.length)) (a : Shp.Asm), (∀ d ∈ l, (darts E).opp d ∉ l) → a.processed.length = evs.length →
    a.contoursIds.length = evs.length → a.inToOut.length = evs.length →
    (S.processContourEvents eventsIds cid a (l.map evs.get)).processed.length = evs.length ∧
    (S.processContourEvents eventsIds cid a (l.map evs.get)).contoursIds.length = evs.length ∧
    (S.processContourEvents eventsIds cid a (l.map evs.get)).inToOut.length = evs.length ∧
    (∀ i : Fin evs.length, (S.processContourEvents eventsIds cid a (l.map evs.get)).processed.getD i false =
      (a.processed.getD i false || (darts E).span l i)) ∧
    (∀ i : Fin evs.length, (darts E).lf i = true →
      (S.processContourEvents eventsIds cid a (l.map evs.get)).contoursIds.getD i none =
        (if (darts E).span l i = true then some cid else a.contoursIds.getD i none) ∧
      (S.processContourEvents eventsIds cid a (l.map evs.get)).inToOut.getD i false =
        (if (darts E).span l i = true then decide ((darts E).opp i ∈ l) else a.inToOut.getD i false)) ∧
    (S.processContourEvents eventsIds cid a (l.map evs.get)).internal = a.internal ∧
    (S.processContourEvents eventsIds cid a (l.map evs.get)).depths = a.depths ∧
    (S.processContourEvents eventsIds cid a (l.map evs.get)).holes = a.holes ∧
    (S.processContourEvents eventsIds cid a (l.map evs.get)).parents = a.parents ∧
    (S.processContourEvents eventsIds cid a (l.map evs.get)).vertices = a.vertices := by
  intro l
  induction l with
  | nil =>
    intro a _ h1 h2 h3
    have : S.processContourEvents eventsIds cid a (([] : List (Fin evs.length)).map evs.get) = a := rfl
    rw [this]
    refine ⟨h1, h2, h3, fun i => ?_, fun i _ => ?_, rfl, rfl, rfl, rfl, rfl⟩
    · simp [Darts.span]
    · simp [Darts.span]
  | cons d l ih =>
    intro a hno h1 h2 h3
    have unf : S.processContourEvents eventsIds cid a ((d :: l).map evs.get) =
      S.processContourEvents eventsIds cid (S.processContourEvent eventsIds cid a (evs.get d)) (l.map evs.get) := rfl
    rw [unf]
    have hd : (eventsIds.getD (evs.get d) none).getD 0 = d.val := by rw [hI]; rfl
    have ho : (eventsIds.getD (S.lin.opp (evs.get d)) none).getD 0 = ((darts E).opp d).val := by rw [← get_opp E, hI]; rfl
    have hno' : ∀ x ∈ l, (darts E).opp x ∉ l := fun x hx q => hno x (List.mem_cons_of_mem _ hx) (List.mem_cons_of_mem _ q)
    have dlt := d.2
    have olt := ((darts E).opp d).2
    have hoo := darts_opp_opp E
    have s1 : (S.processContourEvent eventsIds cid a (evs.get d)).processed =
        (a.processed.set d.val true).set ((darts E).opp d).val true := by
      unfold Shp.processContourEvent
      simp only [hd, ho]
      split <;> rfl
    have s2 : (S.processContourEvent eventsIds cid a (evs.get d)).contoursIds =
        a.contoursIds.set (if (darts E).lf d = true then d.val else ((darts E).opp d).val) (some cid) := by
      unfold Shp.processContourEvent
      simp only [hd, ho]
      by_cases c : isLeft (evs.get d) = true
      · rw [if_pos c, if_pos (show (darts E).lf d = true from c)]
      · rw [if_neg c, if_neg (show ¬ (darts E).lf d = true from c)]
    have s3 : (S.processContourEvent eventsIds cid a (evs.get d)).inToOut =
        a.inToOut.set (if (darts E).lf d = true then d.val else ((darts E).opp d).val) (!(darts E).lf d) := by
      unfold Shp.processContourEvent
      simp only [hd, ho]
      by_cases c : isLeft (evs.get d) = true
      · rw [if_pos c, if_pos (show (darts E).lf d = true from c), (show (darts E).lf d = true from c)]; rfl
      · rw [if_neg c, if_neg (show ¬ (darts E).lf d = true from c)]
        simp only [Bool.not_eq_true] at c
        rw [(show (darts E).lf d = false from c)]; rfl
    have s4 : (S.processContourEvent eventsIds cid a (evs.get d)).internal = a.internal ∧
        (S.processContourEvent eventsIds cid a (evs.get d)).depths = a.depths ∧
        (S.processContourEvent eventsIds cid a (evs.get d)).holes = a.holes ∧
        (S.processContourEvent eventsIds cid a (evs.get d)).parents = a.parents ∧
        (S.processContourEvent eventsIds cid a (evs.get d)).vertices = a.vertices := by
      unfold Shp.processContourEvent
      simp only
      split <;> exact ⟨rfl, rfl, rfl, rfl, rfl⟩
    obtain ⟨t1, t2, t3, t4, t5⟩ := s4
    obtain ⟨k1, k2, k3, k4, k5, k6, k7, k8, k9, k10⟩ := ih (S.processContourEvent eventsIds cid a (evs.get d)) hno'
      (by rw [s1]; simp [h1]) (by rw [s2]; simp [h2]) (by rw [s3]; simp [h3])
    have hspan : ∀ i, (darts E).span (d :: l) i = true ↔ i = d ∨ i = (darts E).opp d ∨ (darts E).span l i = true := by
      intro i
      rw [Darts.span_iff, Darts.span_iff, List.mem_cons, List.mem_cons]
      have : (darts E).opp i = d ↔ i = (darts E).opp d :=
        ⟨fun q => by rw [← q, hoo], fun q => by rw [q, hoo]⟩
      rw [this]
      constructor
      · rintro ((a | b) | (a | b)) <;> simp_all
      · rintro (a | a | a | a) <;> simp_all
    have hlt' : (if (darts E).lf d = true then d.val else ((darts E).opp d).val) < evs.length := by split <;> assumption
    have hleft : ∀ i : Fin evs.length, (darts E).lf i = true →
        ((if (darts E).lf d = true then d.val else ((darts E).opp d).val) = i.val ↔ i = d ∨ i = (darts E).opp d) := by
      intro i hi
      by_cases c : (darts E).lf d = true
      · rw [if_pos c]
        constructor
        · intro q; exact Or.inl (Fin.ext q.symm)
        · rintro (q | q)
          · rw [q]
          · exfalso
            rw [q, darts_lf_opp, c] at hi
            exact absurd hi (by simp)
      · rw [if_neg c]
        constructor
        · intro q; exact Or.inr (Fin.ext q.symm)
        · rintro (q | q)
          · rw [q] at hi; exact absurd hi c
          · rw [q]
    refine ⟨k1, k2, k3, fun i => ?_, fun i hi => ⟨?_, ?_⟩, k6.trans t1, k7.trans t2, k8.trans t3, k9.trans t4, k10.trans t5⟩
    · rw [k4, s1, getD_set (by rw [List.length_set, h1]; exact olt), getD_set (by rw [h1]; exact dlt)]
      rw [Bool.eq_iff_iff, Bool.or_eq_true, Bool.or_eq_true, hspan]
      by_cases c1 : ((darts E).opp d).val = i.val
      · have : i = (darts E).opp d := Fin.ext c1.symm
        rw [if_pos c1]; simp [this]
      · have n1 : ¬ i = (darts E).opp d := fun q => c1 (by rw [q])
        rw [if_neg c1]
        by_cases c2 : d.val = i.val
        · have : i = d := Fin.ext c2.symm
          rw [if_pos c2]; simp [this]
        · have n2 : ¬ i = d := fun q => c2 (by rw [q])
          rw [if_neg c2]; simp [n1, n2]
    · rw [(k5 i hi).1, s2, getD_set (by rw [h2]; exact hlt')]
      by_cases c1 : (darts E).span l i = true
      · rw [if_pos c1, if_pos ((hspan i).mpr (Or.inr (Or.inr c1)))]
      · rw [if_neg c1]
        by_cases c2 : i = d ∨ i = (darts E).opp d
        · rw [if_pos ((hleft i hi).mpr c2), if_pos ((hspan i).mpr (by rcases c2 with q | q <;> simp [q]))]
        · rw [if_neg (fun q => c2 ((hleft i hi).mp q)), if_neg]
          rw [hspan]
          rintro (q | q | q)
          · exact c2 (Or.inl q)
          · exact c2 (Or.inr q)
          · exact c1 q
    · rw [(k5 i hi).2, s3, getD_set (by rw [h3]; exact hlt')]
      by_cases c1 : (darts E).span l i = true
      · rw [if_pos c1, if_pos ((hspan i).mpr (Or.inr (Or.inr c1)))]
        rw [decide_eq_decide, List.mem_cons]
        constructor
        · exact Or.inr
        · rintro (q | q)
          · rcases Darts.span_iff.mp c1 with c | c
            · exfalso
              refine hno d (by simp) (List.mem_cons_of_mem _ ?_)
              rw [← q, hoo]; exact c
            · exact c
          · exact q
      · rw [if_neg c1]
        have c1' := Darts.span_false.mp (by simpa using c1)
        by_cases c2 : i = d ∨ i = (darts E).opp d
        · rw [if_pos ((hleft i hi).mpr c2), if_pos ((hspan i).mpr (by rcases c2 with q | q <;> simp [q]))]
          rcases c2 with q | q
          · have : (darts E).opp i ∉ d :: l := by
              rw [q]; exact hno d (by simp)
            rw [decide_eq_false this, ← q, hi]; rfl
          · have : (darts E).opp i ∈ d :: l := by rw [q, hoo]; simp
            rw [decide_eq_true this]
            rw [q, darts_lf_opp] at hi
            exact hi
        · rw [if_neg (fun q => c2 ((hleft i hi).mp q)), if_neg]
          rw [hspan]
          rintro (q | q | q)
          · exact c2 (Or.inl q)
          · exact c2 (Or.inr q)
          · exact c1 q

/-- The vertices of a contour of the result. -/
def finish (S : Shp) (b : Bool) (events : List ℕ) : List Point :=
  if b = true then Shp.reverseVertices (shrinkCollinearVertices (S.rawVertices events))
  else shrinkCollinearVertices (S.rawVertices events)

/-- How a contour started at `e` is related to the ones found before. -/
def LinkAt (Cs : List (List (Fin evs.length))) (internal : ℕ → Bool) (parent : ℕ → Option ℕ) (e : Fin evs.length) (m : ℕ)
    (b : Bool) (p : Option ℕ) : Prop :=
  (S.belowFromResult.getD (evs.get e / 2) none = none ∧ b = false ∧ p = none) ∨
  ∃ i c, c < m ∧ (darts E).lf i = true ∧ S.belowFromResult.getD (evs.get e / 2) none = some (evs.get i) ∧
    (i ∈ Cs.getD c [] ∧ internal c = false ∧ b = true ∧ p = some c ∨
     i ∈ Cs.getD c [] ∧ internal c = true ∧ b = false ∧ p = none ∨
     (darts E).opp i ∈ Cs.getD c [] ∧ internal c = true ∧ b = true ∧ p = parent c ∨
     (darts E).opp i ∈ Cs.getD c [] ∧ internal c = false ∧ b = false ∧ p = none)

/-- The state of the assembly when the contours `Cs` are found and the events before `t` are used. -/
structure AsmInv (side : (Fin evs.length → Bool) → Fin evs.length → Bool) (a : Shp.Asm) (Cs : List (List (Fin evs.length)))
    (t : ℕ) : Prop where
  peeled : Peeled (darts E) side Cs
  done : ∀ i : Fin evs.length, i.val < t → (darts E).rem Cs i = false
  plen : a.processed.length = evs.length
  clen : a.contoursIds.length = evs.length
  olen : a.inToOut.length = evs.length
  proc : ∀ i : Fin evs.length, a.processed.getD i false = !(darts E).rem Cs i
  cont : ∀ i : Fin evs.length, (darts E).lf i = true → (darts E).rem Cs i = false → ∃ c < Cs.length,
    a.contoursIds.getD i none = some c ∧ (darts E).span (Cs.getD c []) i = true ∧
    a.inToOut.getD i false = decide ((darts E).opp i ∈ Cs.getD c [])
  ilen : a.internal.length = Cs.length
  dlen : a.depths.length = Cs.length
  hlen : a.holes.length = Cs.length
  rlen : a.parents.length = Cs.length
  vlen : a.vertices.length = Cs.length
  dep : ∀ j < Cs.length, a.depths.getD j 0 = if a.internal.getD j false = true then 1 else 0
  par : ∀ j < Cs.length, (a.internal.getD j false = true → ∃ q < j, a.parents.getD j none = some q ∧
    a.internal.getD q false = false) ∧ (a.internal.getD j false = false → a.parents.getD j none = none)
  holes : ∀ q < Cs.length, a.holes.getD q [] = (List.range Cs.length).filter fun j => decide (a.parents.getD j none = some q)
  vert : ∀ j < Cs.length, a.vertices.getD j [] = finish S (a.internal.getD j false) ((Cs.getD j []).map evs.get)
  link : ∀ j < Cs.length, ∃ e, (Cs.getD j []).head? = some e ∧ LinkAt E Cs (fun j => a.internal.getD j false)
    (fun j => a.parents.getD j none) e j (a.internal.getD j false) (a.parents.getD j none)

/-- The lists after a contour is related to the other ones. -/
def related (a : Shp.Asm) (m : ℕ) (b : Bool) (p : Option ℕ) : Shp.Asm :=
  { a with
    holes := (match p with | none => a.holes | some q => a.holes.set q (a.holes.getD q [] ++ [m])) ++ [[]]
    parents := a.parents ++ [p]
    depths := a.depths ++ [if b = true then 1 else 0]
    internal := a.internal ++ [b] }

variable {side : (Fin evs.length → Bool) → Fin evs.length → Bool}

theorem relations_spec {a : Shp.Asm} {Cs : List (List (Fin evs.length))} {e : Fin evs.length}
    (hI : ∀ i : Fin evs.length, eventsIds.getD (evs.get i) none = some i.val) (h : AsmInv E side a Cs e.val)
    (hb : ∀ z, S.belowFromResult.getD (evs.get e / 2) none = some z → ∃ i : Fin evs.length, evs.get i = z ∧
      (darts E).lf i = true ∧ i.val < e.val) :
    ∃ b p, (b = true → ∃ q < Cs.length, p = some q ∧ a.internal.getD q false = false) ∧ (b = false → p = none) ∧
      S.computeRelations eventsIds a (evs.get e) Cs.length = .ok (related a Cs.length b p) ∧
      LinkAt E Cs (fun j => a.internal.getD j false) (fun j => a.parents.getD j none) e Cs.length b p := by
  unfold Shp.computeRelations
  cases hz : S.belowFromResult.getD (evs.get e / 2) none with
  | none =>
    refine ⟨false, none, by simp, fun _ => rfl, rfl, Or.inl ⟨hz, rfl, rfl⟩⟩
  | some z =>
    obtain ⟨i, rfl, hl, hlt⟩ := hb z hz
    simp only
    rw [hI i]
    simp only
    have hrem := h.done i hlt
    obtain ⟨c, c1, c2, c3, c4⟩ := h.cont i hl hrem
    rw [c2]
    simp only
    rw [c4]
    have hd := h.dep c c1
    obtain ⟨p1, p2⟩ := h.par c c1
    by_cases hin : (darts E).opp i ∈ Cs.getD c []
    · rw [decide_eq_true hin]
      simp only [Bool.not_true, Bool.false_eq_true, if_false]
      by_cases hi : a.internal.getD c false = true
      · obtain ⟨q, q1, q2, q3⟩ := p1 hi
        rw [if_pos hi, q2]
        simp only
        refine ⟨true, some q, fun _ => ⟨q, by omega, rfl, q3⟩, by simp, ?_,
          Or.inr ⟨i, c, c1, hl, hz, Or.inr (Or.inr (Or.inl ⟨hin, hi, rfl, q2.symm⟩))⟩⟩
        rw [hd, if_pos hi]; rfl
      · rw [if_neg hi]
        simp only [Bool.not_eq_true] at hi
        exact ⟨false, none, by simp, fun _ => rfl, rfl,
          Or.inr ⟨i, c, c1, hl, hz, Or.inr (Or.inr (Or.inr ⟨hin, hi, rfl, rfl⟩))⟩⟩
    · rw [decide_eq_false hin]
      simp only [Bool.not_false, if_true]
      have hin' : i ∈ Cs.getD c [] := by
        rcases Darts.span_iff.mp c3 with q | q
        · exact q
        · exact absurd q hin
      by_cases hi : a.internal.getD c false = true
      · rw [hi]
        simp only [Bool.not_true, Bool.false_eq_true, if_false]
        exact ⟨false, none, by simp, fun _ => rfl, rfl,
          Or.inr ⟨i, c, c1, hl, hz, Or.inr (Or.inl ⟨hin', hi, rfl, rfl⟩)⟩⟩
      · simp only [Bool.not_eq_true] at hi
        rw [hi]
        simp only [Bool.not_false, if_true]
        refine ⟨true, some c, fun _ => ⟨c, c1, rfl, hi⟩, by simp, ?_,
          Or.inr ⟨i, c, c1, hl, hz, Or.inl ⟨hin', hi, rfl, rfl⟩⟩⟩
        rw [hd, hi]; rfl

theorem raw_length {events : List ℕ} (h : events ≠ []) : (S.rawVertices events).length = events.length := by
  unfold Shp.rawVertices
  rw [List.length_cons, List.length_map, List.length_dropLast]
  have := List.length_pos_iff.mpr h
  omega

theorem linkAt_congr {Cs Cs' : List (List (Fin evs.length))} {internal internal' : ℕ → Bool} {parent parent' : ℕ → Option ℕ}
    {e : Fin evs.length} {m : ℕ} {b : Bool} {p : Option ℕ} (h : LinkAt E Cs internal parent e m b p)
    (h1 : ∀ c < m, Cs'.getD c [] = Cs.getD c []) (h2 : ∀ c < m, internal' c = internal c)
    (h3 : ∀ c < m, parent' c = parent c) : LinkAt E Cs' internal' parent' e m b p := by
  rcases h with h | ⟨i, c, c1, c2, c3, c4⟩
  · exact Or.inl h
  · right
    refine ⟨i, c, c1, c2, c3, ?_⟩
    rw [h1 c c1, h2 c c1, h3 c c1]
    exact c4

/-- One more contour. -/
theorem AsmInv.new {a : Shp.Asm} {Cs : List (List (Fin evs.length))} {e : Fin evs.length} {s : List (Fin evs.length)}
    (hI : ∀ i : Fin evs.length, eventsIds.getD (evs.get i) none = some i.val) (h : AsmInv E side a Cs e.val)
    (hs : Peeled (darts E) side (Cs ++ [s])) (hhead : s.head? = some e) (hno : ∀ d ∈ s, (darts E).opp d ∉ s)
    {b : Bool} {p : Option ℕ} (b1 : b = true → ∃ q < Cs.length, p = some q ∧ a.internal.getD q false = false)
    (b2 : b = false → p = none) (hlk : LinkAt E Cs (fun j => a.internal.getD j false) (fun j => a.parents.getD j none) e Cs.length b p)
    {A : Shp.Asm} (hA : A = S.processContourEvents eventsIds Cs.length (related a Cs.length b p) (s.map evs.get)) :
    AsmInv E side { A with vertices := A.vertices ++ [finish S b (s.map evs.get)] } (Cs ++ [s]) (e.val + 1) := by
  obtain ⟨k1, k2, k3, k4, k5, k6, k7, k8, k9, k10⟩ :=
    processContour_spec E hI Cs.length s (related a Cs.length b p) hno h.plen h.clen h.olen
  rw [← hA] at k1 k2 k3 k4 k5 k6 k7 k8 k9 k10
  have hlen : (Cs ++ [s]).length = Cs.length + 1 := by simp
  have gC : ∀ j, (Cs ++ [s]).getD j [] = if j = Cs.length then s else Cs.getD j [] := fun j => getD_snoc
  have gI : ∀ j, A.internal.getD j false = if j = Cs.length then b else a.internal.getD j false := by
    intro j; rw [k6, ← h.ilen]; exact getD_snoc
  have gP : ∀ j, A.parents.getD j none = if j = Cs.length then p else a.parents.getD j none := by
    intro j; rw [k9, ← h.rlen]; exact getD_snoc
  have gD : ∀ j, A.depths.getD j 0 = if j = Cs.length then (if b = true then 1 else 0) else a.depths.getD j 0 := by
    intro j; rw [k7, ← h.dlen]; exact getD_snoc
  have gV : ∀ j, (A.vertices ++ [finish S b (s.map evs.get)]).getD j [] =
      if j = Cs.length then finish S b (s.map evs.get) else a.vertices.getD j [] := by
    intro j
    rw [k10, ← h.vlen]; exact getD_snoc
  have hpar : ∀ q, p = some q → q < Cs.length ∧ b = true := by
    intro q hq
    cases hb : b with
    | false => rw [b2 hb] at hq; simp at hq
    | true =>
      obtain ⟨q', q1, q2, _⟩ := b1 hb
      rw [hq, Option.some.injEq] at q2
      exact ⟨by rw [q2]; exact q1, rfl⟩
  have hrem : ∀ i, (darts E).rem (Cs ++ [s]) i = ((darts E).rem Cs i && !(darts E).span s i) := fun i => by
    rw [Darts.rem_snoc]
  have hes : e ∈ s := List.mem_of_mem_head? hhead
  refine ⟨hs, fun i hi => ?_, k1, k2, k3, fun i => ?_, fun i hl hi => ?_, ?_, ?_, ?_, ?_, ?_, fun j hj => ?_, fun j hj => ?_,
    fun q hq => ?_, fun j hj => ?_, fun j hj => ?_⟩
  · rw [hrem]
    by_cases c : i.val < e.val
    · rw [h.done i c]; rfl
    · have : i = e := Fin.ext (by omega)
      rw [this, Darts.span_iff.mpr (Or.inl hes)]; simp
  · show A.processed.getD i false = _
    rw [k4, hrem]
    show (a.processed.getD i false || _) = _
    rw [h.proc]
    cases (darts E).rem Cs i <;> cases (darts E).span s i <;> rfl
  · obtain ⟨c1, c2⟩ := k5 i hl
    show ∃ c < (Cs ++ [s]).length, A.contoursIds.getD i none = some c ∧ _ ∧ A.inToOut.getD i false = _
    rw [c1, c2]
    by_cases c : (darts E).span s i = true
    · refine ⟨Cs.length, by omega, by rw [if_pos c], ?_, ?_⟩
      · rw [gC, if_pos rfl]; exact c
      · rw [if_pos c, gC, if_pos rfl]
    · rw [hrem] at hi
      have hi' : (darts E).rem Cs i = false := by
        revert hi
        simp only [Bool.not_eq_true] at c
        rw [c]; simp
      obtain ⟨d, d1, d2, d3, d4⟩ := h.cont i hl hi'
      refine ⟨d, by omega, by rw [if_neg c]; exact d2, ?_, ?_⟩
      · rw [gC, if_neg (by omega)]; exact d3
      · rw [if_neg c, gC, if_neg (by omega)]; exact d4
  · show A.internal.length = _
    rw [k6, hlen, ← h.ilen]; simp [related]
  · show A.depths.length = _
    rw [k7, hlen, ← h.dlen]; simp [related]
  · show A.holes.length = _
    rw [k8, hlen, ← h.hlen]
    unfold related
    cases p <;> simp
  · show A.parents.length = _
    rw [k9, hlen, ← h.rlen]; simp [related]
  · show (A.vertices ++ _).length = _
    rw [List.length_append, k10, hlen, ← h.vlen]; rfl
  · show A.depths.getD j 0 = if A.internal.getD j false = true then 1 else 0
    rw [gD, gI]
    by_cases c : j = Cs.length
    · rw [if_pos c, if_pos c]
    · rw [if_neg c, if_neg c]; exact h.dep j (by omega)
  · show (A.internal.getD j false = true → ∃ q < j, A.parents.getD j none = some q ∧ A.internal.getD q false = false) ∧
      (A.internal.getD j false = false → A.parents.getD j none = none)
    rw [gI, gP]
    by_cases c : j = Cs.length
    · rw [if_pos c, if_pos c]
      refine ⟨fun hb => ?_, b2⟩
      obtain ⟨q, q1, q2, q3⟩ := b1 hb
      exact ⟨q, by omega, q2, by rw [gI, if_neg (by omega)]; exact q3⟩
    · rw [if_neg c, if_neg c]
      obtain ⟨r1, r2⟩ := h.par j (by omega)
      refine ⟨fun hb => ?_, r2⟩
      obtain ⟨q, q1, q2, q3⟩ := r1 hb
      exact ⟨q, by omega, q2, by rw [gI, if_neg (by omega)]; exact q3⟩
  · show A.holes.getD q [] = (List.range (Cs ++ [s]).length).filter fun j => decide (A.parents.getD j none = some q)
    rw [hlen, List.range_succ, List.filter_append]
    have e1 : (List.range Cs.length).filter (fun j => decide (A.parents.getD j none = some q)) =
        (List.range Cs.length).filter fun j => decide (a.parents.getD j none = some q) := by
      apply List.filter_congr
      intro j hj
      rw [List.mem_range] at hj
      rw [gP, if_neg (by omega)]
    have e2 : List.filter (fun j => decide (A.parents.getD j none = some q)) [Cs.length] =
        if p = some q then [Cs.length] else [] := by
      rw [List.filter_singleton, gP, if_pos rfl]
      by_cases c : p = some q <;> simp [c]
    rw [e1, e2, k8]
    have hq' : q < Cs.length ∨ q = Cs.length := by rw [hlen] at hq; omega
    cases hp : p with
    | none =>
      have e3 : (related a Cs.length b none).holes = a.holes ++ [[]] := rfl
      rw [e3, getD_snoc, h.hlen]
      rcases hq' with c | c
      · rw [if_neg (by omega), h.holes q c]; simp
      · rw [if_pos c]
        simp only [reduceCtorEq, if_false, List.append_nil]
        rw [eq_comm, List.filter_eq_nil_iff]
        intro j hj
        rw [List.mem_range] at hj
        obtain ⟨r1, r2⟩ := h.par j hj
        simp only [decide_eq_true_iff]
        intro hh
        cases hi : a.internal.getD j false with
        | false => rw [r2 hi] at hh; simp at hh
        | true =>
          obtain ⟨q', q1, q2, _⟩ := r1 hi
          rw [hh, Option.some.injEq] at q2
          omega
    | some r =>
      obtain ⟨r1, r2⟩ := hpar r hp
      have e3 : (related a Cs.length b (some r)).holes = (a.holes.set r (a.holes.getD r [] ++ [Cs.length])) ++ [[]] := rfl
      rw [e3, getD_snoc, List.length_set, h.hlen]
      rcases hq' with c | c
      · rw [if_neg (by omega), getD_set (by rw [h.hlen]; exact r1)]
        by_cases d : r = q
        · subst d
          rw [if_pos rfl, if_pos rfl, h.holes r c]
        · rw [if_neg d, if_neg (by simpa using d), h.holes q c, List.append_nil]
      · rw [if_pos c, if_neg (by rw [Option.some.injEq]; omega), List.append_nil, eq_comm, List.filter_eq_nil_iff]
        intro j hj
        rw [List.mem_range] at hj
        obtain ⟨r1, r2⟩ := h.par j hj
        simp only [decide_eq_true_iff]
        intro hh
        cases hi : a.internal.getD j false with
        | false => rw [r2 hi] at hh; simp at hh
        | true =>
          obtain ⟨q', q1, q2, _⟩ := r1 hi
          rw [hh, Option.some.injEq] at q2
          omega
  · show (A.vertices ++ _).getD j [] = finish S (A.internal.getD j false) (((Cs ++ [s]).getD j []).map evs.get)
    rw [gV, gI, gC]
    by_cases c : j = Cs.length
    · rw [if_pos c, if_pos c, if_pos c]
    · rw [if_neg c, if_neg c, if_neg c]; exact h.vert j (by omega)
  · show ∃ e, ((Cs ++ [s]).getD j []).head? = some e ∧ LinkAt E (Cs ++ [s]) (fun j => A.internal.getD j false)
      (fun j => A.parents.getD j none) e j (A.internal.getD j false) (A.parents.getD j none)
    rw [gC, gI, gP]
    by_cases c : j = Cs.length
    · rw [if_pos c, if_pos c, if_pos c, c]
      refine ⟨e, hhead, linkAt_congr E hlk (fun d hd => ?_) (fun d hd => ?_) fun d hd => ?_⟩
      · rw [gC, if_neg (by omega)]
      · rw [gI, if_neg (by omega)]
      · rw [gP, if_neg (by omega)]
    · rw [if_neg c, if_neg c, if_neg c]
      obtain ⟨f, f1, f2⟩ := h.link j (by omega)
      refine ⟨f, f1, linkAt_congr E f2 (fun d hd => ?_) (fun d hd => ?_) fun d hd => ?_⟩
      · rw [gC, if_neg (by omega)]
      · rw [gI, if_neg (by omega)]
      · rw [gP, if_neg (by omega)]

/-- The first remaining event is a left one. -/
theorem first_left {U : Fin evs.length → Bool} (hU : (darts E).Ev U)
    (hlt : ∀ d, (darts E).lf d = true → (darts E).v d < (darts E).v ((darts E).opp d)) {e : Fin evs.length} (he : U e = true)
    (hmin : ∀ i : Fin evs.length, i.val < e.val → U i = false) : (darts E).lf e = true := by
  by_contra c
  simp only [Bool.not_eq_true] at c
  have h1 : (darts E).lf ((darts E).opp e) = true := by rw [darts_lf_opp, c]; rfl
  have h2 := hlt _ h1
  rw [darts_opp_opp] at h2
  have h3 : ((darts E).opp e).val < e.val := by
    by_contra k'
    rcases Nat.lt_or_eq_of_le (Nat.le_of_not_lt k') with k' | k'
    · rcases before E k' with b | b
      · exact absurd b (lt_asymm h2)
      · have := b.1
        rw [darts_v, darts_v, this] at h2
        exact absurd h2 (lt_irrefl _)
    · rw [← Fin.ext k'] at h2
      exact absurd h2 (lt_irrefl _)
  have := hmin _ h3
  rw [hU.opp, he] at this
  exact absurd this (by simp)

theorem assemble_spec (g : (darts E).Good side) (hall : (darts E).Ev fun _ => true)
    (hlt : ∀ d, (darts E).lf d = true → (darts E).v d < (darts E).v ((darts E).opp d))
    (hI : ∀ i : Fin evs.length, eventsIds.getD (evs.get i) none = some i.val)
    (hb : ∀ e : Fin evs.length, (darts E).lf e = true → ∀ z, S.belowFromResult.getD (evs.get e / 2) none = some z →
      ∃ i : Fin evs.length, evs.get i = z ∧ (darts E).lf i = true ∧ i.val < e.val) :
    ∀ (l : List ℕ) (a : Shp.Asm) (Cs : List (List (Fin evs.length))) (t : ℕ), evs.drop t = l → AsmInv E side a Cs t →
    ∃ a' Cs', S.assemble evs eventsIds (S.connectivity evs) a t l = .ok a' ∧ AsmInv E side a' Cs' evs.length := by
  intro l
  induction l with
  | nil =>
    intro a Cs t ht h
    have : evs.length ≤ t := List.drop_eq_nil_iff.mp ht
    refine ⟨a, Cs, rfl, ⟨h.peeled, fun i hi => h.done i (by omega), h.plen, h.clen, h.olen, h.proc, h.cont, h.ilen, h.dlen,
      h.hlen, h.rlen, h.vlen, h.dep, h.par, h.holes, h.vert, h.link⟩⟩
  | cons x l ih =>
    intro a Cs t ht h
    have htl : t < evs.length := by
      by_contra c
      rw [List.drop_eq_nil_of_le (by omega)] at ht
      simp at ht
    have hd := List.drop_eq_getElem_cons htl
    rw [ht] at hd
    injection hd with hx hl
    set e : Fin evs.length := ⟨t, htl⟩ with he
    have hxe : x = evs.get e := hx
    unfold Shp.assemble Shp.assembleStep
    have hproc := h.proc e
    by_cases hr : (darts E).rem Cs e = true
    · -- a new contour
      have hproc' : a.processed.getD t false = false := by
        have : a.processed.getD t false = !(darts E).rem Cs e := hproc
        rw [this, hr]; rfl
      rw [hproc']
      simp only [Bool.false_eq_true, if_false]
      have hev := (h.peeled.nest g hall).ev
      have hlf := first_left E hev hlt hr fun i hi => h.done i hi
      obtain ⟨b, p, b1, b2, b3, b4⟩ := relations_spec E hI h (hb e hlf)
      rw [hxe, h.vlen, b3]
      simp only
      obtain ⟨s, s1, s2⟩ := contourEvents_spec E g (eventsIds := eventsIds) (processed := (related a Cs.length b p).processed)
        hev hI h.proc hr hlf
      rw [s1]
      simp only
      have hsne : s.map evs.get ≠ [] := by
        intro q
        have := s2.len
        rw [List.map_eq_nil_iff] at q
        rw [q] at this
        simp at this
      have hcv : S.contourVertices (s.map evs.get) = .ok (shrinkCollinearVertices (S.rawVertices (s.map evs.get))) := by
        unfold Shp.contourVertices
        rw [if_neg]
        rw [raw_length hsne, List.length_map]
        have := s2.len
        omega
      rw [hcv]
      simp only
      have hpeel : Peeled (darts E) side (Cs ++ [s]) := by
        refine Peeled.snoc h.peeled hlf hr (fun i hi => ?_) s2
        by_contra c
        have := h.done i (Nat.lt_of_not_le c)
        rw [hi] at this
        exact absurd this (by simp)
      have hnew := h.new E hI hpeel s2.head s2.no b1 b2 b4 (A := S.processContourEvents eventsIds Cs.length
        (related a Cs.length b p) (s.map evs.get)) rfl
      have hdep : (S.processContourEvents eventsIds Cs.length (related a Cs.length b p) (s.map evs.get)).depths.getD Cs.length 0
          = if b = true then 1 else 0 := by
        obtain ⟨_, _, _, _, _, _, k7, _⟩ :=
          processContour_spec E hI Cs.length s (related a Cs.length b p) s2.no h.plen h.clen h.olen
        rw [k7]
        show (a.depths ++ [_]).getD _ _ = _
        rw [← h.dlen, getD_snoc, if_pos rfl]
      rw [hdep]
      have hfin : (if (if b = true then 1 else 0) % 2 = 1 then
          Shp.reverseVertices (shrinkCollinearVertices (S.rawVertices (s.map evs.get)))
          else shrinkCollinearVertices (S.rawVertices (s.map evs.get))) = finish S b (s.map evs.get) := by
        unfold finish
        cases b <;> simp
      rw [hfin]
      exact ih _ _ (t + 1) hl.symm hnew
    · have hr' : (darts E).rem Cs e = false := by simpa using hr
      have hproc' : a.processed.getD t false = true := by
        have : a.processed.getD t false = !(darts E).rem Cs e := hproc
        rw [this, hr']; rfl
      rw [if_pos hproc']
      refine ih a Cs (t + 1) hl.symm ⟨h.peeled, fun i hi => ?_, h.plen, h.clen, h.olen, h.proc, h.cont, h.ilen, h.dlen,
        h.hlen, h.rlen, h.vlen, h.dep, h.par, h.holes, h.vert, h.link⟩
      by_cases c : i.val < t
      · exact h.done i c
      · have : i = e := Fin.ext (by rw [he]; show i.val = t; omega)
        rw [this]; exact hr'

theorem init_asm : AsmInv E side (Shp.Asm.init evs.length) [] 0 := by
  refine ⟨Peeled.nil, by simp, ?_, ?_, ?_, fun i => ?_, fun i _ hi => ?_, rfl, rfl, rfl, rfl, rfl, ?_, ?_, ?_, ?_, ?_⟩
  · simp [Shp.Asm.init]
  · simp [Shp.Asm.init]
  · simp [Shp.Asm.init]
  · show (List.replicate evs.length false).getD i false = _
    rw [getD_replicate]; rfl
  · exact absurd hi (by simp [Darts.rem])
  all_goals intro j hj; exact absurd hj (by simp)

end Rene.Assemble
