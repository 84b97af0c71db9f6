import Verif.Spec.Sequences

/-!
# Specification: the XY-concatenated sequence as the code builds it

A list of units of free evolution of equal length; each entry lists the pulses applied right after its unit.
-/

namespace OpenControls.Spec

/-- a further Z pulse at the end -/
def thenZ (units : List (List Axis)) : List (List Axis) :=
  units.dropLast ++ [units.getLastD [] ++ [.z]]

/-- Order one is documented: X, Y, X, Y, each after one unit.  To form order `l + 1` from order `l` the
documented recursion puts X, Y, X and Y after four copies.

* If `l` is odd, order `l` ends with a pulse Y.  After the first and third copy it merges with X to Z, after
  the second and fourth it cancels with Y.  This is the documented result.
* If `l` is even, order `l` ends with a unit without pulse.  The code takes the unit for a pulse Y: in the
  first three copies the unit is lost, and there is Z, nothing, Z instead of X, Y, X.
-/
def builtXY : ℕ → List (List Axis)
  | 0 => []
  | 1 => [[.x], [.y], [.x], [.y]]
  | n + 2 =>
    let c := (builtXY (n + 1)).dropLast
    if n % 2 = 0 then c ++ [[.z]] ++ c ++ [[]] ++ c ++ [[.z]] ++ c ++ [[]]
    else thenZ c ++ c ++ thenZ c ++ c ++ [[.y]]

/-- the pulses with their times, if the units have length `u` and the first begins at `t` -/
noncomputable def unitPulses (u t : ℝ) : List (List Axis) → List (ℝ × Axis)
  | [] => []
  | pulses :: rest => pulses.map (fun a => (t + u, a)) ++ unitPulses u (t + u) rest

end OpenControls.Spec
