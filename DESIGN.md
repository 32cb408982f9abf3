# Formal model of lycantropos/rene in Lean 4

## What is modelled

The target is the pure-Python implementation in `/repo/rene` (the Rust sources under
`/repo/src` mirror it and are not modelled).  Scalars are exact rationals: `rene.exact` uses
`fractions.Fraction`-like exact arithmetic, so the model's scalar type is `ℚ`.

Layout of `/verif/lean/Verif`:

* `Model/*.lean`   executable definitions, function by function, each citing file and lines;
* `Spec/*.lean`    small independent specifications (point sets, convex combinations, dihedral
                   equivalence, ...), not using model helpers;
* `Lemmas/*.lean`  helper lemmas;
* `Props/*.lean`   the property theorems (one or more per property id) and non-vacuity examples.

Exceptions are values (`Except`), mutation becomes state passing, loops are structural recursion or
take fuel (and a theorem shows that the fuel given suffices: `C34_terminates`, `C39_locate_terminates`).
The external containers are modelled by their contracts: the priority queue of `prioq` as a list from which
`pop` removes the least element in the order of the code's key class, the sorted map of `dendroid` as the list of
its keys in which insertion, `find`, `next`/`prev` use the code's key comparison.  Both contracts presuppose that
the key comparison is a strict total order on the keys held at one time; for the sweep line this is not assumed
but proved (`C34_sweep_line_sorted`), for the queue it is a lexicographic order.  Python `assert`s are modelled
as errors or as a flag which is proved to stay set.

## Trusted base

* Lean 4.33.0's kernel; the axioms `propext`, `Classical.choice`, `Quot.sound` (no others; every
  theorem is checked with `#print axioms`).
* The reading of the Python code into the model (the code is not run).
* Python semantics: short-circuit booleans, chained comparisons, `is` on enum members being equality,
  `min`/`max`/`sorted`, exact rational arithmetic of the scalar class; `hash` is treated as an
  uninterpreted function of the normalised value which the code passes to `hash(...)`.

## Not modelled

Pickling, the Rust extension and its dispatch, floating point scalars,
performance, and the internals of `dendroid` and `prioq`.

## Plan per property

| id | model | proof |
|----|-------|-------|
| C01 | `locatePointInSegment` | case split on direction, solve for the parameter |
| C02, C03 | `relateToSegmentEndpoints` (decision tree) | point-set characterisation per branch |
| C04 | `Relation.complement` | finite case split over the whole enumeration |
| C05-C08 | segment/segment boolean functions | from the point-set lemmas for collinear segments |
| C09-C11 | segment/multisegmental loops | induction over the component list |
| C12, C13 | box predicates and the `relate_to` decision tree | linear arithmetic, witnesses for point sets |
| C14, C15 | `mergeBoxes`, bounding boxes, filters | induction, convexity |
| C16, C17 | comparison operators, `==`, hash input | order laws |
| C18, C19 | contour `==`/hash | list rotation lemmas |
| C20 | frozenset equality / hash | set equality |
| C21-C24 | `locate` functions | induction over edges; parity argument |
| C25, C26 | orientation | ring identities, rotation lemmas |
| C27 | `toSegmentsIntersection` | field arithmetic |
| C28 | in-circle polynomial | polynomial identity with the circumcentre |
| C29 | `permute` | mixed-radix induction |
| C30-C33 | constructors, views, Empty | direct |
| C34, C35 | linear sweep engine with oracle containers | invariant over all step sequences |
| C36 | Bentley-Ottmann registry, sweep, `is_valid` | if there is a bad contact: an invariant up to the first one, then a report cannot be avoided; if there is none: nothing is ever divided and every contact is reported once |
| C37 | scanning functions | induction with accumulators |
| C38 | quad-edge mesh | invariant over operation sequences |
| C39 | Seidel search graph: all of `rene/_seidel` | invariant over insertions: ranked graph; induction on the rank |
| C40 | `shrinkCollinearVertices` | induction |
| C41 | mixed difference shortcut | negation with witness |
| C42 | helpers | induction / arithmetic |
| C43 | operators of `Empty`, `Segment`, `Multisegment`, `Contour` among themselves | regularised sets, induction over expressions |
| C44, C45 | trapezoidation | negation with witness (all seeds) |
| C46 | `relate_to_region` for a polygon with at most one hole | loop invariant, C23 |
| C47 | the same | negation with witness |
| C48, C49 | mixed sweep with flags, early exit and the dispatching functions | the sweep engine simulates C34; flags as parity of the edges below (Jordan-type lemma from crossing parity) |
| C50, C51 | shaped sweep with flags, overlap kinds, `reduce_events`, connectivity, contour assembly, nesting and the sixteen dispatching functions | the sweep engine simulates C34; selected edges form an even planar graph (parity of edges below); the assembly walks its faces, so its contours are simple and use each edge once; boxes and untouched polygons are handled by exclusivity of interiors |
| C52 | shaped sweep, connection and contour assembly | a counterexample evaluated by the kernel |
| C57 | the same code as C50, C51, down to `locate` of the result | the invariant of C34's status list is strengthened with adjacency: when no point common to two contours of one operand is inside an edge of the other one, the edge recorded below is the one whose upper side is the face where the contour starts, or, when two edges start inside an edge, the contour which starts there is even in number with it and the parity of the recorded side is unchanged (`Irr`, `Fin.irr_even`); so the recorded parents are the nesting forest of the contours, and a point is in a polygon iff it is inside an odd number of contours (C51) |
| C58 | the same | off the operands' edges validity is read from the nesting forest of C57 (a point is inside of the contours around one contour); every point of a contour is close to points off the edges on both sides of it, which extends validity to all points |
| C59 | the same | C57 off the edges; constancy of `locate` near points off the result's contours (C23), both sides near points of them; C58 |
| C60 | the same | C59 for both orders, for equal operands; a valid polygon has boundary points |
| C61 | the same and the dispatch of the operators on polygonal operands (`Model/DispatchShaped.lean`) | induction on the expression: each operator gives a valid geometry with at least two polygons in a multipolygon, so it can be an operand again, and is exact off the boundaries of its operands; then the regularity argument of C59 for the edges of all the leaves; identities by comparing the insides off the edges of both |
| C62 | all of `rene/_seidel` as modelled for C39 | the plane is sheared so that no two end points are on one vertical line; invariant over the insertions: the leaves of the search graph are exactly the trapezoids of the decomposition of the box by the inserted edges, uniquely determined by their corners, with the four neighbour links leading to the adjacent trapezoids; hence the chain of trapezoids crossed by the next edge is found, no error is raised, and the graph leads each point to the trapezoid or the edge it lies on |
| C63 | the same | the same invariant for the edges of the contours; two orders of insertion give the same decomposition, and the flags of a trapezoid are those of the edges directly below and above |
| C64 | the same | flags of edges against the orientation of contours (right except for the closing edge, where it is always wrong); parity of edges below a point of a trapezoid; a point not inside cannot be between edges of different contours; the edges of the trapezoid of a point are those next to it on the vertical line (order of noncrossing edges on a common span), so that the points of the inside wrongly called EXTERIOR are exactly those over or under a closing edge; an edge which is not vertical has points of the inside over or under it, so mistakes are made unless all closing edges are vertical |
| C65 | `__repr__`/`__str__` of all geometries, with the printer of scalars as a parameter (`Model/Repr.lean`) | texts as lists of characters; every printer is shown to be readable also when more text follows (what follows a part starts with a comma or a closing bracket), by induction on lists; `str`/`repr` of fractions are specified in `Spec` by decimal digits and proved readable |
| C66 | the same and `__new__` of the classes (`Model/Constructors.lean`) | `Spec.Evaluates`: evaluation of Python expressions made of scalars, lists and calls of constructors, as an inductive relation between texts and values; by induction on lists; that the texts of coordinates evaluate to them is part of the specification (they are those of `rithm`'s fractions) |
| C53 | `relate_to_multisegmental`, `to_relation` with its early exits, `RelationState` | the engine is the one of C34; every group of events determines locally which operand has points without the other; the early exits are justified by the bounding boxes |
| C54 | `rene/_relating/shaped.py`, `relate_to` between polygons and multipolygons, `polygon_to_segments` | the engine is the one of C50; each edge has a kind (inside, outside, common) determined by the parity of the edges of the other operand below it, and the kinds determine which of the regions, insides and boundaries have common points; holes and polygons left out by the bounding boxes do not change the relation; the relations are pairwise exclusive |
| C55 | `rene/_relating/mixed.py` and all its callers; the sweep line as it is, without removal, with a flag that its keys stay sorted | range of the result by cases; bounding boxes; counterexamples evaluated by the kernel, in runs where the sweep line stays sorted |
| C56 | `rene/_triangulation/constrained_delaunay.py`, `vertices.py`, with a fuel for the loops and `AssertionError` as a result | the stages keep the points and the range of the vertices of edges; the grouping of the sorted vertices; an invariant of the queue of crossings; counterexamples evaluated by the kernel |
