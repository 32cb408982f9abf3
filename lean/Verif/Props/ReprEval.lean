import Verif.Model.Constructors
import Verif.Props.Repr

/-! # C66: the text of a geometry is an expression which rebuilds it -/

namespace Rene
open Text Constructors

namespace Spec

/-- The names of the classes. -/
def className : Class → String
  | .point => "Point"
  | .segment => "Segment"
  | .box => "Box"
  | .contour => "Contour"
  | .multisegment => "Multisegment"
  | .polygon => "Polygon"
  | .multipolygon => "Multipolygon"
  | .empty => "Empty"

/- Evaluation of Python expressions made of scalars, lists `[a, b]` and calls of constructors `Name(a, b)`. -/
mutual
/-- The text is an expression with the value. -/
inductive Evaluates (scalar : ℚ → List Char) : List Char → Value → Prop
  | num (q : ℚ) : Evaluates scalar (scalar q) (.num q)
  | list {t : List Char} {items : List Value} : EvaluateTo scalar t items →
      Evaluates scalar (['['] ++ (t ++ [']'])) (.list items)
  | call (cls : Class) {t : List Char} {args : List Value} {v : Value} : EvaluateTo scalar t args →
      construct cls args = some v → Evaluates scalar ((className cls).toList ++ (['('] ++ (t ++ [')']))) v
/-- The text is a sequence of expressions, separated by commas and spaces, with the values. -/
inductive EvaluateTo (scalar : ℚ → List Char) : List Char → List Value → Prop
  | nil : EvaluateTo scalar [] []
  | one {t : List Char} {v : Value} : Evaluates scalar t v → EvaluateTo scalar t [v]
  | cons {t u : List Char} {v w : Value} {vs : List Value} : Evaluates scalar t v → EvaluateTo scalar u (w :: vs) →
      EvaluateTo scalar (t ++ ([',', ' '] ++ u)) (v :: w :: vs)
end

/-- The constructor of contours does not raise. -/
def ContourBuilt (c : Contour) : Prop := 3 ≤ c.vertices.length

/-- The constructors of all parts of the polygon do not raise. -/
def PolygonBuilt (p : Polygon) : Prop := ContourBuilt p.border ∧ ∀ h ∈ p.holes, ContourBuilt h

/-- The constructors of all parts of the geometry do not raise. -/
def Built : Geom → Prop
  | .empty => True
  | .segment _ => True
  | .multisegment m => 2 ≤ m.segments.length
  | .contour c => ContourBuilt c
  | .polygon p => PolygonBuilt p
  | .multipolygon m => 2 ≤ m.polygons.length ∧ ∀ p ∈ m.polygons, PolygonBuilt p

end Spec

namespace Text
open Spec

theorem mapM_map {α : Type} {f : α → Value} {g : Value → Option α} (h : ∀ a, g (f a) = some a) (l : List α) :
    (l.map f).mapM g = some l := by
  induction l with
  | nil => rfl
  | cons a l ih => simp [List.mapM_cons, h, ih]

variable {scalar : ℚ → List Char}

theorem join_evaluates {α : Type} {f : α → List Char} {g : α → Value} :
    ∀ {l : List α}, (∀ a ∈ l, Evaluates scalar (f a) (g a)) → EvaluateTo scalar (join (l.map f)) (l.map g)
  | [], _ => .nil
  | [a], h => .one (h a (by simp))
  | a :: b :: l, h => .cons (h a (by simp)) (join_evaluates (l := b :: l) (fun x hx => h x (by simp [hx])))

theorem text_eq1 : "Point(".toList = (className .point).toList ++ ['('] := by decide

theorem text_eq2 : ", ".toList = [',', ' '] := by decide

theorem text_eq3 : ")".toList = [')'] := by decide

theorem text_eq4 : "Segment(".toList = (className .segment).toList ++ ['('] := by decide

theorem text_eq5 : "Box(".toList = (className .box).toList ++ ['('] := by decide

theorem text_eq6 : "Contour([".toList = (className .contour).toList ++ (['('] ++ ['[']) := by decide

theorem text_eq7 : "])".toList = [']'] ++ [')'] := by decide

theorem text_eq8 : "Multisegment([".toList = (className .multisegment).toList ++ (['('] ++ ['[']) := by decide

theorem text_eq9 : "Polygon(".toList = (className .polygon).toList ++ ['('] := by decide

theorem text_eq10 : ", [".toList = [',', ' '] ++ ['['] := by decide

theorem text_eq11 : "Multipolygon([".toList = (className .multipolygon).toList ++ (['('] ++ ['[']) := by decide

theorem point_evaluates (p : Point) : Evaluates scalar (point scalar p) (.point p) := by
  have h := Evaluates.call .point (EvaluateTo.cons (.num (scalar := scalar) p.x) (.one (.num p.y))) rfl
  simp only [List.append_assoc] at h
  unfold point
  rw [text_eq2, text_eq3, text_eq1]
  simp only [List.append_assoc]
  exact h

theorem segment_evaluates (s : Segment) : Evaluates scalar (segment scalar s) (.geom (.segment s)) := by
  have a : EvaluateTo scalar (point scalar s.start ++ ([',', ' '] ++ point scalar s.end)) [.point s.start, .point s.end] :=
    .cons (point_evaluates s.start) (.one (point_evaluates s.end))
  have b : construct .segment [.point s.start, .point s.end] = some (.geom (.segment s)) := rfl
  have h := Evaluates.call .segment a b
  simp only [List.append_assoc] at h
  unfold segment
  rw [text_eq2, text_eq3, text_eq4]
  simp only [List.append_assoc]
  exact h

theorem box_evaluates (b : Box) : Evaluates scalar (box scalar b) (.box b) := by
  have h := Evaluates.call .box (EvaluateTo.cons (.num (scalar := scalar) b.minX) (.cons (.num b.maxX)
    (.cons (.num b.minY) (.one (.num b.maxY))))) rfl
  simp only [List.append_assoc] at h
  unfold box
  rw [text_eq2, text_eq3, text_eq5]
  simp only [List.append_assoc]
  exact h

theorem contour_evaluates {c : Contour} (hc : ContourBuilt c) : Evaluates scalar (contour scalar c) (.geom (.contour c)) := by
  have i : EvaluateTo scalar (join (c.vertices.map (point scalar))) (c.vertices.map (Value.point)) := join_evaluates (fun a _ => point_evaluates a)
  have a : EvaluateTo scalar (['['] ++ (join (c.vertices.map (point scalar)) ++ [']'])) [.list (c.vertices.map (Value.point))] := .one (.list i)
  have b : construct .contour [.list (c.vertices.map (Value.point))] = some (.geom (.contour c)) := by
    simp only [construct]
    rw [mapM_map (f := Value.point) (g := Value.point?) (fun _ => rfl)]
    simp only [Option.bind_some]
    rw [if_neg (by unfold ContourBuilt at hc; omega)]
  have h := Evaluates.call .contour a b
  simp only [List.append_assoc] at h
  unfold contour
  rw [text_eq7, text_eq6]
  simp only [List.append_assoc]
  exact h

theorem multisegment_evaluates {m : Multisegment} (hm : 2 ≤ m.segments.length) :
    Evaluates scalar (multisegment scalar m) (.geom (.multisegment m)) := by
  have i : EvaluateTo scalar (join (m.segments.map (segment scalar))) (m.segments.map (fun a => Value.geom (.segment a))) := join_evaluates (fun a _ => segment_evaluates a)
  have a : EvaluateTo scalar (['['] ++ (join (m.segments.map (segment scalar)) ++ [']'])) [.list (m.segments.map (fun a => Value.geom (.segment a)))] := .one (.list i)
  have b : construct .multisegment [.list (m.segments.map (fun a => Value.geom (.segment a)))] = some (.geom (.multisegment m)) := by
    simp only [construct]
    rw [mapM_map (f := fun a => Value.geom (.segment a)) (g := Value.segment?) (fun _ => rfl)]
    simp only [Option.bind_some]
    rw [if_neg (by omega)]
  have h := Evaluates.call .multisegment a b
  simp only [List.append_assoc] at h
  unfold multisegment
  rw [text_eq7, text_eq8]
  simp only [List.append_assoc]
  exact h

theorem polygon_evaluates {p : Polygon} (hp : PolygonBuilt p) : Evaluates scalar (polygon scalar p) (.geom (.polygon p)) := by
  have i : EvaluateTo scalar (join (p.holes.map (contour scalar))) (p.holes.map (fun a => Value.geom (.contour a))) :=
    join_evaluates (fun a ha => contour_evaluates (hp.2 a ha))
  have a : EvaluateTo scalar (contour scalar p.border ++ ([',', ' '] ++ (['['] ++ (join (p.holes.map (contour scalar)) ++ [']']))))
      [.geom (.contour p.border), .list (p.holes.map (fun a => Value.geom (.contour a)))] :=
    .cons (contour_evaluates hp.1) (.one (.list i))
  have b : construct .polygon [.geom (.contour p.border), .list (p.holes.map (fun a => Value.geom (.contour a)))] =
      some (.geom (.polygon p)) := by
    simp only [construct]
    rw [mapM_map (f := fun a => Value.geom (.contour a)) (g := Value.contour?) (fun _ => rfl)]
    rfl
  have h := Evaluates.call .polygon a b
  simp only [List.append_assoc] at h
  unfold polygon
  rw [text_eq10, text_eq7, text_eq9]
  simp only [List.append_assoc]
  exact h

theorem multipolygon_evaluates {m : Multipolygon} (hm : 2 ≤ m.polygons.length) (hp : ∀ p ∈ m.polygons, PolygonBuilt p) :
    Evaluates scalar (multipolygon scalar m) (.geom (.multipolygon m)) := by
  have i : EvaluateTo scalar (join (m.polygons.map (polygon scalar))) (m.polygons.map (fun a => Value.geom (.polygon a))) := join_evaluates (fun a ha => polygon_evaluates (hp a ha))
  have a : EvaluateTo scalar (['['] ++ (join (m.polygons.map (polygon scalar)) ++ [']'])) [.list (m.polygons.map (fun a => Value.geom (.polygon a)))] := .one (.list i)
  have b : construct .multipolygon [.list (m.polygons.map (fun a => Value.geom (.polygon a)))] = some (.geom (.multipolygon m)) := by
    simp only [construct]
    rw [mapM_map (f := fun a => Value.geom (.polygon a)) (g := Value.polygon?) (fun _ => rfl)]
    simp only [Option.bind_some]
    rw [if_neg (by omega)]
  have h := Evaluates.call .multipolygon a b
  simp only [List.append_assoc] at h
  unfold multipolygon
  rw [text_eq7, text_eq11]
  simp only [List.append_assoc]
  exact h

end Text

/-- C66: the text of every geometry, the constructors of whose parts do not raise, is an expression with the geometry as its
value, as long as the texts of scalars are expressions with the scalars as their values. -/
theorem C66_text_rebuilds (scalar : ℚ → List Char) (g : Geom) (hg : Spec.Built g) :
    Spec.Evaluates scalar (Text.geom scalar g) (.geom g) := by
  cases g with
  | empty => exact .call .empty .nil rfl
  | segment s => exact segment_evaluates s
  | multisegment m => exact multisegment_evaluates hg
  | contour c => exact contour_evaluates hg
  | polygon p => exact polygon_evaluates hg
  | multipolygon m => exact multipolygon_evaluates hg.1 hg.2

/-- C66: points and boxes. -/
theorem C66_points_and_boxes (scalar : ℚ → List Char) (p : Point) (b : Box) :
    Spec.Evaluates scalar (Text.point scalar p) (.point p) ∧ Spec.Evaluates scalar (Text.box scalar b) (.box b) :=
  ⟨point_evaluates p, box_evaluates b⟩

/-- C66: a geometry all of whose parts are built. -/
example : Spec.Built (.multipolygon ⟨[⟨⟨[⟨0, 0⟩, ⟨9, 0⟩, ⟨0, 9⟩]⟩, [⟨[⟨1, 1⟩, ⟨1, 2⟩, ⟨2, 1⟩]⟩]⟩,
    ⟨⟨[⟨10, 10⟩, ⟨19, 10⟩, ⟨10, 19⟩]⟩, []⟩]⟩) := by
  simp [Spec.Built, Spec.PolygonBuilt, Spec.ContourBuilt]

end Rene
