import Verif.Lemmas.Mesh
import Mathlib.Data.Fintype.Card
import Mathlib.Data.Fintype.Pigeonhole
import Mathlib.Logic.Function.Iterate
import Mathlib.Data.Finset.Card

/-! The triangulation algorithm keeps the mesh invariant; the boundary walk terminates. -/

namespace Rene
namespace Mesh

variable {m m' : Mesh} {a b e : Nat}

/-- An edge (of the primal graph) of the mesh. -/
def IsEdge (m : Mesh) (e : Nat) : Prop := e < m.leftFromStart.length ∧ e % 2 = 0

/-- Meshes built from points by any sequence of the public operations, applied to edges of the mesh: creation
of an edge between two points, splicing of edges which start at the same vertex, connection, deletion, and
swapping of an edge which has other edges at both of its ends and does not join a vertex with itself. -/
inductive ReachableMesh (points : List Point) : Mesh → Prop
  | new : ReachableMesh points (fromPoints points)
  | create {m : Mesh} {i j : Nat} : ReachableMesh points m → i < points.length → j < points.length →
      ReachableMesh points (m.createEdge i j).1
  | splice {m : Mesh} {a b : Nat} : ReachableMesh points m → IsEdge m a → IsEdge m b →
      m.toStartIndex a = m.toStartIndex b → ReachableMesh points (m.spliceEdges a b)
  | connect {m : Mesh} {a b : Nat} : ReachableMesh points m → IsEdge m a → IsEdge m b →
      ReachableMesh points (m.connectEdges a b).1
  | delete {m : Mesh} {e : Nat} : ReachableMesh points m → IsEdge m e → ReachableMesh points (m.deleteEdge e)
  | swap {m : Mesh} {e : Nat} : ReachableMesh points m → IsEdge m e → m.toStartIndex e ≠ m.toEndIndex e →
      m.toLeftFromStart e ≠ e → m.toLeftFromStart (toOppositeEdge e) ≠ toOppositeEdge e →
      ReachableMesh points (m.swapDiagonal e)

/-- A mesh which evolved from another one. -/
structure Evolved (m m' : Mesh) : Prop where
  ok : Ok m'
  len : m.leftFromStart.length ≤ m'.leftFromStart.length
  points : m'.endpoints = m.endpoints
  reach : ∀ P, ReachableMesh P m → ReachableMesh P m'

theorem Evolved.refl (o : Ok m) : Evolved m m := ⟨o, le_rfl, rfl, fun _ h => h⟩

theorem Evolved.trans {m'' : Mesh} (h : Evolved m m') (h' : Evolved m' m'') : Evolved m m'' :=
  ⟨h'.ok, h.len.trans h'.len, h'.points.trans h.points, fun P r => h'.reach P (h.reach P r)⟩

theorem Evolved.edge (h : Evolved m m') (he : IsEdge m e) : IsEdge m' e := ⟨he.1.trans_le h.len, he.2⟩

theorem IsEdge.opp (he : IsEdge m e) (o : Ok m) : IsEdge m (toOppositeEdge e) :=
  ⟨opp_lt o.quad.four he.1, by rw [opp_par]; exact he.2⟩

theorem IsEdge.left (he : IsEdge m e) (o : Ok m) : IsEdge m (m.toLeftFromStart e) :=
  ⟨o.quad.lt e he.1, by rw [o.quad.par e he.1]; exact he.2⟩

theorem IsEdge.right (he : IsEdge m e) (o : Ok m) : IsEdge m (m.toRightFromStart e) :=
  ⟨o.quad.right_lt he.1, by rw [o.quad.right_par he.1]; exact he.2⟩

theorem IsEdge.leftEnd (he : IsEdge m e) (o : Ok m) : IsEdge m (m.toLeftFromEnd e) := by
  rw [leftFromEnd_eq]; exact (he.opp o).right o

theorem IsEdge.rightEnd (he : IsEdge m e) (o : Ok m) : IsEdge m (m.toRightFromEnd e) := (he.opp o).left o

theorem ReachableMesh.points {P : List Point} (h : ReachableMesh P m) : m.endpoints = P := by
  induction h with
  | new => rfl
  | create _ _ _ ih => exact ih
  | splice _ _ _ _ ih => rw [splice_endpoints]; exact ih
  | connect _ _ _ ih => rw [connect_endpoints]; exact ih
  | delete _ _ ih => rw [delete_endpoints]; exact ih
  | swap _ _ _ _ _ ih => rw [swap_endpoints]; exact ih

theorem Evolved.create (o : Ok m) {s t : Nat} (hs : s < m.endpoints.length) (ht : t < m.endpoints.length) :
    Evolved m (m.createEdge s t).1 ∧ IsEdge (m.createEdge s t).1 (m.createEdge s t).2 := by
  have h4 := o.quad.four
  refine ⟨⟨o.create hs ht, by rw [create_length]; omega, rfl,
    fun P r => .create r (by rw [← r.points]; exact hs) (by rw [← r.points]; exact ht)⟩, ?_, ?_⟩
  · rw [create_length]; show m.leftFromStart.length < _; omega
  · show m.leftFromStart.length % 2 = 0; omega

theorem Evolved.connect (o : Ok m) (ha : IsEdge m a) (hb : IsEdge m b) :
    Evolved m (m.connectEdges a b).1 ∧ IsEdge (m.connectEdges a b).1 (m.connectEdges a b).2 := by
  have h4 := o.quad.four
  refine ⟨⟨o.connect ha.1 hb.1 ha.2 hb.2, by rw [connect_length]; omega, connect_endpoints m a b,
    fun P r => .connect r ha hb⟩, ?_, ?_⟩
  · rw [connect_length, connect_snd]; omega
  · rw [connect_snd]; omega

theorem Evolved.delete (o : Ok m) (he : IsEdge m e) : Evolved m (m.deleteEdge e) :=
  ⟨o.delete he.1 he.2, by rw [delete_length], delete_endpoints m e, fun P r => .delete r he⟩

theorem buildBaseEdge_ok (o : Ok m) : ∀ {fuel first second : Nat} {r : Mesh × Nat × Nat × Nat},
    IsEdge m first → IsEdge m second → m.buildBaseEdge fuel first second = some r →
    Evolved m r.1 ∧ IsEdge r.1 r.2.1 ∧ IsEdge r.1 r.2.2.1 ∧ IsEdge r.1 r.2.2.2 := by
  intro fuel
  induction fuel with
  | zero => intro first second r _ _ h; simp [buildBaseEdge] at h
  | succ fuel ih =>
    intro first second r hf hs h
    rw [buildBaseEdge] at h
    split_ifs at h
    · exact ih (hf.leftEnd o) hs h
    · exact ih hf (hs.rightEnd o) h
    · simp only [Option.some.injEq] at h
      subst h
      have k := Evolved.connect o (hs.opp o) hf
      exact ⟨k.1, k.1.edge hf, k.2, k.1.edge hs⟩

theorem leftCandidateLoop_ok : ∀ {fuel base : Nat} {m : Mesh} {e : Nat} {r : Mesh × Nat}, Ok m → IsEdge m e →
    leftCandidateLoop base fuel m e = some r → Evolved m r.1 ∧ IsEdge r.1 r.2 := by
  intro fuel base
  induction fuel with
  | zero => intro m e r _ _ h; simp [leftCandidateLoop] at h
  | succ fuel ih =>
    intro m e r o he h
    rw [leftCandidateLoop] at h
    split_ifs at h
    · have k := Evolved.delete o he
      have := ih k.ok (k.edge (he.left o)) h
      exact ⟨k.trans this.1, this.2⟩
    · simp only [Option.some.injEq] at h; subst h; exact ⟨.refl o, he⟩

theorem rightCandidateLoop_ok : ∀ {fuel base : Nat} {m : Mesh} {e : Nat} {r : Mesh × Nat}, Ok m →
    IsEdge m e → rightCandidateLoop base fuel m e = some r → Evolved m r.1 ∧ IsEdge r.1 r.2 := by
  intro fuel base
  induction fuel with
  | zero => intro m e r _ _ h; simp [rightCandidateLoop] at h
  | succ fuel ih =>
    intro m e r o he h
    rw [rightCandidateLoop] at h
    split_ifs at h
    · have k := Evolved.delete o he
      have := ih k.ok (k.edge (he.right o)) h
      exact ⟨k.trans this.1, this.2⟩
    · simp only [Option.some.injEq] at h; subst h; exact ⟨.refl o, he⟩

theorem findLeftCandidate_ok (o : Ok m) {fuel base : Nat} (hb : IsEdge m base) {r : Mesh × Option Nat}
    (h : m.findLeftCandidate base fuel = some r) : Evolved m r.1 ∧ ∀ e ∈ r.2, IsEdge r.1 e := by
  unfold findLeftCandidate at h
  simp only at h
  split_ifs at h
  · simp only [Option.some.injEq] at h; subst h; exact ⟨.refl o, by simp⟩
  · simp only [Option.map_eq_some_iff] at h
    obtain ⟨x, hx, rfl⟩ := h
    have := leftCandidateLoop_ok o ((hb.opp o).left o) hx
    exact ⟨this.1, by simpa using this.2⟩

theorem findRightCandidate_ok (o : Ok m) {fuel base : Nat} (hb : IsEdge m base) {r : Mesh × Option Nat}
    (h : m.findRightCandidate base fuel = some r) : Evolved m r.1 ∧ ∀ e ∈ r.2, IsEdge r.1 e := by
  unfold findRightCandidate at h
  simp only at h
  split_ifs at h
  · simp only [Option.some.injEq] at h; subst h; exact ⟨.refl o, by simp⟩
  · simp only [Option.map_eq_some_iff] at h
    obtain ⟨x, hx, rfl⟩ := h
    have := rightCandidateLoop_ok o (hb.right o) hx
    exact ⟨this.1, by simpa using this.2⟩

theorem riseBubble_ok {loops : Nat} : ∀ {fuel : Nat} {m : Mesh} {base : Nat} {r : Mesh}, Ok m → IsEdge m base →
    riseBubble loops fuel m base = some r → Evolved m r := by
  intro fuel
  induction fuel with
  | zero => intro m base r _ _ h; simp [riseBubble] at h
  | succ fuel ih =>
    intro m base r o hb h
    rw [riseBubble] at h
    split at h
    · cases h
    · rename_i m1 lc h1
      obtain ⟨k1, j1⟩ := findLeftCandidate_ok o hb h1
      split at h
      · cases h
      · rename_i m2 rc h2
        obtain ⟨k2, j2⟩ := findRightCandidate_ok k1.ok (k1.edge hb) h2
        have k12 := k1.trans k2
        have hb2 := k12.edge hb
        have go : ∀ x y, IsEdge m2 x → IsEdge m2 y →
            riseBubble loops fuel (m2.connectEdges x y).1 (m2.connectEdges x y).2 = some r → Evolved m r := by
          intro x y hx hy h
          have k3 := Evolved.connect k2.ok hx hy
          exact (k12.trans k3.1).trans (ih k3.1.ok k3.2 h)
        split at h
        · rename_i l r'
          have hl : IsEdge m2 l := k2.edge (j1 l rfl)
          have hr : IsEdge m2 r' := j2 r' rfl
          split at h
          · exact go _ _ hr (hb2.opp k2.ok) h
          · exact go _ _ (hb2.opp k2.ok) (hl.opp k2.ok) h
        · rename_i l
          have hl : IsEdge m2 l := k2.edge (j1 l rfl)
          exact go _ _ (hb2.opp k2.ok) (hl.opp k2.ok) h
        · rename_i r'
          exact go _ _ (j2 r' rfl) (hb2.opp k2.ok) h
        · simp only [Option.some.injEq] at h
          subst h; exact k12

/-- Both sides are edges. -/
def IsSides (m : Mesh) (s : Nat × Nat) : Prop := IsEdge m s.1 ∧ IsEdge m s.2

theorem Evolved.sides {s : Nat × Nat} (h : Evolved m m') (hs : IsSides m s) : IsSides m' s :=
  ⟨h.edge hs.1, h.edge hs.2⟩

theorem merge_ok (o : Ok m) {fuel : Nat} {s t : Nat × Nat} (hs : IsSides m s) (ht : IsSides m t)
    {r : Mesh × Nat × Nat} (h : m.merge fuel s t = some r) : Evolved m r.1 ∧ IsSides r.1 r.2 := by
  unfold merge at h
  split at h
  · cases h
  · rename_i m1 f b g h1
    obtain ⟨k, i1, i2, i3⟩ := buildBaseEdge_ok o hs.2 ht.1 h1
    simp only [Option.map_eq_some_iff] at h
    obtain ⟨m2, h2, rfl⟩ := h
    have k2 := riseBubble_ok k.ok i2 h2
    have k3 := k.trans k2
    refine ⟨k3, ?_, ?_⟩
    · show IsEdge m2 (if _ then _ else _)
      split
      · exact (k2.edge i2).opp k2.ok
      · exact k3.edge hs.1
    · show IsEdge m2 (if _ then _ else _)
      split
      · exact k2.edge i2
      · exact k3.edge ht.2

theorem mergeRound_ok {fuel : Nat} : ∀ {m : Mesh} {l : List (Nat × Nat)} {r : Mesh × List (Nat × Nat)}, Ok m →
    (∀ s ∈ l, IsSides m s) → mergeRound fuel m l = some r →
    Evolved m r.1 ∧ (∀ s ∈ r.2, IsSides r.1 s) ∧ r.2.length = (l.length + 1) / 2 := by
  intro m l
  induction m, l using mergeRound.induct fuel with
  | case1 m first second rest hm =>
    intro r o hl h
    rw [mergeRound, hm] at h; simp at h
  | case2 m first second rest m1 s hm ih =>
    intro r o hl h
    rw [mergeRound, hm] at h
    simp only [Option.map_eq_some_iff] at h
    obtain ⟨x, hx, rfl⟩ := h
    obtain ⟨k, i⟩ := merge_ok o (hl first (by simp)) (hl second (by simp)) hm
    obtain ⟨k2, i2, i3⟩ := ih k.ok (fun s hs => k.sides (hl s (by simp [hs]))) hx
    refine ⟨k.trans k2, ?_, ?_⟩
    · intro t ht
      rcases List.mem_cons.mp ht with rfl | ht
      · exact k2.sides i
      · exact i2 t ht
    · simp only [List.length_cons, i3]; omega
  | case3 m rest h =>
    intro r o hl hr
    rw [mergeRound] at hr
    · simp only [Option.some.injEq] at hr
      subst hr
      refine ⟨.refl o, hl, ?_⟩
      match rest, h with
      | [], _ => rfl
      | [x], _ => simp
      | x :: y :: rest, h => exact absurd rfl (h x y rest)
    · exact h

theorem mergeRounds_ok {fuel : Nat} : ∀ {rounds : Nat} {m : Mesh} {l : List (Nat × Nat)}
    {r : Mesh × List (Nat × Nat)}, Ok m →
    (∀ s ∈ l, IsSides m s) → mergeRounds fuel rounds m l = some r →
    Evolved m r.1 ∧ (∀ s ∈ r.2, IsSides r.1 s) ∧ (1 ≤ l.length → l.length ≤ 2 ^ rounds → r.2.length = 1) := by
  intro rounds
  induction rounds with
  | zero =>
    intro m l r o hl h
    simp only [mergeRounds, Option.some.injEq] at h
    subst h
    exact ⟨.refl o, hl, fun h1 h2 => by simp only [pow_zero] at h2; simp only; omega⟩
  | succ n ih =>
    intro m l r o hl h
    rw [mergeRounds] at h
    split at h
    · cases h
    · rename_i m1 l1 h1
      obtain ⟨k, i, j⟩ := mergeRound_ok o hl h1
      obtain ⟨k2, i2, j2⟩ := ih k.ok i h
      refine ⟨k.trans k2, i2, fun g1 g2 => j2 ?_ ?_⟩
      · have j' : l1.length = _ := j
        show 1 ≤ l1.length
        omega
      · have j' : l1.length = _ := j
        show l1.length ≤ 2 ^ n
        rw [pow_succ] at g2; omega

theorem createSegments_ok : ∀ {count index : Nat} {m : Mesh}, Ok m → 2 * (index + count) ≤ m.endpoints.length →
    Evolved m (createSegments count index m).1 ∧
      (∀ s ∈ (createSegments count index m).2, IsSides (createSegments count index m).1 s) ∧
      (createSegments count index m).2.length = count := by
  intro count
  induction count with
  | zero => intro index m o _; exact ⟨.refl o, by simp [createSegments], rfl⟩
  | succ n ih =>
    intro index m o h
    have k := Evolved.create o (s := 2 * index) (t := 2 * index + 1) (by omega) (by omega)
    obtain ⟨k2, i2, j2⟩ := ih (index := index + 1) k.1.ok (by rw [k.1.points]; omega)
    rw [createSegments]
    refine ⟨k.1.trans k2, ?_, by simp only [List.length_cons, j2]⟩
    intro s hs
    rcases List.mem_cons.mp hs with rfl | hs
    · exact ⟨k2.edge k.2, k2.edge (k.2.opp k.1.ok)⟩
    · exact i2 s hs

theorem createTriangle_ok (o : Ok m) {i j k : Nat} (hi : i < m.endpoints.length) (hj : j < m.endpoints.length)
    (hk : k < m.endpoints.length) : Evolved m (m.createTriangle i j k).1 ∧
      IsSides (m.createTriangle i j k).1 (m.createTriangle i j k).2 := by
  have k1 := Evolved.create o hi hj
  have k2 := Evolved.create k1.1.ok (s := j) (t := k) (by rw [k1.1.points]; exact hj) (by rw [k1.1.points]; exact hk)
  set m1 := (m.createEdge i j).1 with hm1
  set m2 := (m1.createEdge j k).1 with hm2
  set e1 := (m.createEdge i j).2 with he1
  set e2 := (m1.createEdge j k).2 with he2
  have g1 : IsEdge m2 e1 := k2.1.edge k1.2
  have hsame : m2.toStartIndex (toOppositeEdge e1) = m2.toStartIndex e2 := by
    have a1 : m2.toStartIndex e2 = j := create_start_new k1.1.ok.quad j k
    have a2 : m2.toStartIndex (toOppositeEdge e1) = m1.toStartIndex (toOppositeEdge e1) :=
      create_start_old k1.1.ok.quad j k (k1.2.opp k1.1.ok).1
    have a3 : m1.toStartIndex (toOppositeEdge e1) = j := create_end_new o.quad i j
    rw [a1, a2, a3]
  have o3 : Ok (m2.spliceEdges (toOppositeEdge e1) e2) :=
    k2.1.ok.splice (g1.opp k2.1.ok).1 k2.2.1 (g1.opp k2.1.ok).2 k2.2.2 hsame
  set m3 := m2.spliceEdges (toOppositeEdge e1) e2 with hm3
  have k3 : Evolved m m3 := ⟨o3, by rw [hm3, splice_length]; exact k1.1.len.trans k2.1.len,
    by rw [hm3, splice_endpoints, k2.1.points, k1.1.points],
    fun P r => .splice (k2.1.reach P (k1.1.reach P r)) (g1.opp k2.1.ok) k2.2 hsame⟩
  have f1 : IsEdge m3 e1 := ⟨by rw [hm3, splice_length]; exact g1.1, g1.2⟩
  have f2 : IsEdge m3 e2 := ⟨by rw [hm3, splice_length]; exact k2.2.1, k2.2.2⟩
  have k4 := Evolved.connect o3 f2 f1
  have ee : m.createTriangle i j k =
      if m3.orientPointToEdge e1 (m3.toEnd e2) = .clockwise then
        ((m3.connectEdges e2 e1).1, toOppositeEdge (m3.connectEdges e2 e1).2, (m3.connectEdges e2 e1).2)
      else if m3.orientPointToEdge e1 (m3.toEnd e2) = .collinear then (m3, e1, toOppositeEdge e2)
      else ((m3.connectEdges e2 e1).1, e1, toOppositeEdge e2) := rfl
  rw [ee]
  split_ifs
  · exact ⟨k3.trans k4.1, k4.2.opp k4.1.ok, k4.2⟩
  · exact ⟨k3, f1, f2.opp o3⟩
  · exact ⟨k3.trans k4.1, k4.1.edge f1, k4.1.edge (f2.opp o3)⟩

theorem createTriangles_ok {offset : Nat} : ∀ {count index : Nat} {m : Mesh}, Ok m →
    offset + 3 * (index + count) ≤ m.endpoints.length →
    Evolved m (createTriangles offset count index m).1 ∧
      (∀ s ∈ (createTriangles offset count index m).2, IsSides (createTriangles offset count index m).1 s) ∧
      (createTriangles offset count index m).2.length = count := by
  intro count
  induction count with
  | zero => intro index m o _; exact ⟨.refl o, by simp [createTriangles], rfl⟩
  | succ n ih =>
    intro index m o h
    have k := createTriangle_ok o (i := offset + 3 * index) (j := offset + 3 * index + 1)
      (k := offset + 3 * index + 2) (by omega) (by omega) (by omega)
    obtain ⟨k2, i2, j2⟩ := ih (index := index + 1) k.1.ok (by rw [k.1.points]; omega)
    rw [createTriangles]
    refine ⟨k.1.trans k2, ?_, by simp only [List.length_cons, j2]⟩
    intro s hs
    rcases List.mem_cons.mp hs with rfl | hs
    · exact k2.sides k.2
    · exact i2 s hs

theorem ok_fromPoints (points : List Point) : Ok (fromPoints points) := by
  refine ⟨⟨by simp [fromPoints], by simp [fromPoints], ?_, ?_, ?_⟩, ?_, ?_⟩
  · intro e he; simp [fromPoints] at he
  · intro e he; simp [fromPoints] at he
  · intro e he; simp [fromPoints] at he
  · intro e he; simp [fromPoints] at he
  · intro i hi; simp [fromPoints] at hi

/-- The walk along the right face returns to its start. -/
theorem rightFromEnd_inj (o : Ok m) (ha : a < m.leftFromStart.length) (hb : b < m.leftFromStart.length)
    (h : m.toRightFromEnd a = m.toRightFromEnd b) : a = b := by
  have := o.quad.left_inj (opp_lt o.quad.four ha) (opp_lt o.quad.four hb) h
  rw [← opp_opp a, this, opp_opp]

theorem iter_lt (o : Ok m) {s : Nat} (hs : s < m.leftFromStart.length) (i : Nat) :
    m.toRightFromEnd^[i] s < m.leftFromStart.length := by
  induction i with
  | zero => exact hs
  | succ i ih => rw [Function.iterate_succ_apply']; exact o.quad.rightFromEnd_lt ih

theorem exists_period (o : Ok m) {s : Nat} (hs : s < m.leftFromStart.length) :
    ∃ k, 1 ≤ k ∧ k ≤ m.leftFromStart.length ∧ m.toRightFromEnd^[k] s = s := by
  obtain ⟨i, hi, j, hj, hne, h⟩ := Finset.exists_ne_map_eq_of_card_lt_of_maps_to
    (s := Finset.range (m.leftFromStart.length + 1)) (t := Finset.range m.leftFromStart.length)
    (f := fun i => m.toRightFromEnd^[i] s) (by simp)
    (fun i _ => by simpa using iter_lt o hs i)
  have key : ∀ i j, i < j → m.toRightFromEnd^[i] s = m.toRightFromEnd^[j] s → m.toRightFromEnd^[j - i] s = s := by
    intro i
    induction i with
    | zero => intro j _ h; simpa using h.symm
    | succ i ih =>
      intro j hij h
      obtain ⟨j', rfl⟩ : ∃ j', j = j' + 1 := ⟨j - 1, by omega⟩
      rw [Function.iterate_succ_apply', Function.iterate_succ_apply'] at h
      have := ih j' (by omega) (rightFromEnd_inj o (iter_lt o hs _) (iter_lt o hs _) h)
      rwa [show j' + 1 - (i + 1) = j' - i by omega]
  simp only [Finset.mem_range] at hi hj
  rcases Nat.lt_or_gt_of_ne hne with hlt | hlt
  · exact ⟨j - i, by omega, by omega, key i j hlt h⟩
  · exact ⟨i - j, by omega, by omega, key j i hlt h.symm⟩

theorem boundaryLoop_eq {s k : Nat} (hk : m.toRightFromEnd^[k] s = s)
    (hmin : ∀ j, 1 ≤ j → j < k → m.toRightFromEnd^[j] s ≠ s) : ∀ (n i fuel : Nat), i + n + 1 = k → n + 1 ≤ fuel →
    m.boundaryLoop s fuel (m.toRightFromEnd^[i] s) =
      some ((List.range' i (n + 1)).map fun j => m.toRightFromEnd^[j] s) := by
  intro n
  induction n with
  | zero =>
    intro i fuel hi hf
    obtain ⟨f, rfl⟩ : ∃ f, fuel = f + 1 := ⟨fuel - 1, by omega⟩
    rw [boundaryLoop]
    simp only [← Function.iterate_succ_apply' m.toRightFromEnd, Nat.succ_eq_add_one]
    rw [show i + 1 = k by omega, if_pos hk]
    simp
  | succ n ih =>
    intro i fuel hi hf
    obtain ⟨f, rfl⟩ : ∃ f, fuel = f + 1 := ⟨fuel - 1, by omega⟩
    rw [boundaryLoop]
    simp only [← Function.iterate_succ_apply' m.toRightFromEnd, Nat.succ_eq_add_one]
    rw [if_neg (hmin (i + 1) (by omega) (by omega)), ih (i + 1) f (by omega) (by omega)]
    simp [List.range'_succ]

end Mesh
end Rene
