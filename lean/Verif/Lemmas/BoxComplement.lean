import Verif.Lemmas.Box

namespace Rene
open Spec

set_option maxHeartbeats 4000000 in
theorem relateTo_complement (a b : Box) (ha : ValidBox a) (hb : ValidBox b) :
    b.relateTo a = (a.relateTo b).complement := by
  obtain ⟨ha1, ha2⟩ := ha
  obtain ⟨hb1, hb2⟩ := hb
  unfold Box.relateTo
  rcases tri a.maxX b.maxX with ⟨h1, h2, h3⟩ | ⟨h1, h2, h3⟩ | ⟨h1, h2, h3⟩ <;>
    rcases tri a.maxY b.maxY with ⟨h1', h2', h3'⟩ | ⟨h1', h2', h3'⟩ | ⟨h1', h2', h3'⟩ <;>
    rcases tri a.minX b.minX with ⟨k1, k2, k3⟩ | ⟨k1, k2, k3⟩ | ⟨k1, k2, k3⟩ <;>
    rcases tri a.minY b.minY with ⟨k1', k2', k3'⟩ | ⟨k1', k2', k3'⟩ | ⟨k1', k2', k3'⟩ <;>
    simp only [h1, h2, h3, h1', h2', h3', k1, k2, k3, k1', k2', k3',
      gt_iff_lt, if_true, if_false, eq_comm (a := b.maxX) (b := a.maxX),
      eq_comm (a := b.maxY) (b := a.maxY), eq_comm (a := b.minX) (b := a.minX),
      eq_comm (a := b.minY) (b := a.minY)] <;>
    (repeat' split) <;> first | rfl | (exfalso; grind)
end Rene
