import Verif.Spec.Excellon
import Verif.Spec.Cairo

/-! # What drilling removes from the board -/

namespace Verif.Excellon.Spec

open Verif.Geom

/-- The points removed by a drill of diameter `d` that makes the feature: those at most `d / 2` from the centre of the
hole, or from some point of the segment between the ends of the slot.  Nothing is known of slots with a missing
coordinate. -/
def Feature.area (d : ℚ) : Feature → Set RPt
  | .hole p => {q | (q.1 - p.1) ^ 2 + (q.2 - p.2) ^ 2 ≤ ((d : ℝ) / 2) ^ 2}
  | .slot (some a, some b) (some c, some e) => {q | ∃ t : ℝ, 0 ≤ t ∧ t ≤ 1 ∧
      (q.1 - (a + t * (c - a))) ^ 2 + (q.2 - (b + t * (e - b))) ^ 2 ≤ ((d : ℝ) / 2) ^ 2}
  | .slot _ _ => ∅

/-- The height up to which the feature reaches. -/
noncomputable def Feature.top (d : ℚ) : Feature → ℝ
  | .hole p => p.2 + d / 2
  | .slot (_, some b) (_, some e) => max b e + d / 2
  | .slot _ _ => 0

end Verif.Excellon.Spec
