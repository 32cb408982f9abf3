STATUS = {}
NOTES = {
 'C52': 'C52_hole_in_wrong_polygon proves the negation of what one would rely on: valid operands whose difference contains a point of the subtrahend.',
 'C11': 'Under NoOverlap (no two components of the minuend overlap collinearly); C11_overlap_needed shows the hypothesis cannot be dropped.',
 'C13': 'C13_degenerate_inconsistent records a finding: for degenerate boxes the predicates and relate_to disagree.',
 'C19': 'C19_degenerate_contour_hash_differs proves the negative half of the property.',
 'C36': 'C36_assert_finding: for several collinear segments with a common start is_valid raises AssertionError instead of returning False (the iff is about the answer True).',
 'C25': 'C25_orientation_area: for every simple contour the orientation is the sign of the shoelace area.',
}
