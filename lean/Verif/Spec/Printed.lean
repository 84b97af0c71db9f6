import Verif.Spec.FloatRepr
import Verif.Model.DrivenControl
import Verif.Model.Sequence
import Verif.Spec.RoundedErrors

/-!
# Specification: typing in what `print` shows

The reader knows the titles of the lines, that lists are in brackets and followed by ` x ` and a common factor, which may
be `pi`, and how a number is written (`parse`).  The name is not read, it may contain anything.
-/

namespace OpenControls.Spec

variable {α : Type} [Add α] [Sub α] [Mul α] [Div α] [Neg α] [PyFloat α]

/-- numbers separated by commas, with or without spaces -/
def listed (parse : List Char → Option α) (cs : List Char) : Option (List α) :=
  if cs.isEmpty then some []
  else (cs.splitOn ',').mapM fun entry => parse (entry.dropWhile (· == ' '))

/-- the common factor of a list -/
def factor (parse : List Char → Option α) (cs : List Char) : Option α :=
  if cs = ['p', 'i'] then some PyFloat.pi else parse cs

/-- a line `title = [numbers] x factor` -/
def listLine (parse : List Char → Option α) (title : String) (line : List Char) : Option (List α) :=
  let start := (title ++ " = [").toList
  if start.isPrefixOf line then
    let rest := line.drop start.length
    match rest.dropWhile (· != ']') with
    | ']' :: ' ' :: 'x' :: ' ' :: f => do
      let f ← factor parse f
      let numbers ← listed parse (rest.takeWhile (· != ']'))
      return numbers.map (· * f)
    | _ => none
  else none

/-- a line `title = number` -/
def numberLine (parse : List Char → Option α) (title : String) (line : List Char) : Option α :=
  let start := (title ++ " = ").toList
  if start.isPrefixOf line then parse (line.drop start.length) else none

/-- the control with the attributes in a printed control -/
def retypeControl (parse : List Char → Option α) (name : Option String) (text : List Char) :
    Option (Except PyErr (DrivenControl α)) :=
  match (text.splitOn '\n').reverse with
  | durations :: detunings :: angles :: rates :: _ => do
    let rates ← listLine parse "Rabi Rates" rates
    let angles ← listLine parse "Azimuthal Angles" angles
    let detunings ← listLine parse "Detunings" detunings
    let durations ← listLine parse "Durations" durations
    return DrivenControl.new durations (some rates) (some angles) (some detunings) name
  | _ => none

/-- the sequence with the attributes in a printed sequence -/
def retypeSequence (parse : List Char → Option α) (name : Option String) (text : List Char) :
    Option (Except PyErr (Sequence α)) :=
  match (text.splitOn '\n').reverse with
  | detunings :: angles :: rotations :: offsets :: duration :: _ => do
    let duration ← numberLine parse "Duration" duration
    let offsets ← listLine parse "Offsets" offsets
    let rotations ← listLine parse "Rabi Rotations" rotations
    let angles ← listLine parse "Azimuthal Angles" angles
    let detunings ← listLine parse "Detuning Rotations" detunings
    return Sequence.new duration offsets rotations angles detunings name
  | _ => none

/-- two lists of numbers that agree entry by entry up to a relative error `K` -/
def EntriesNear (K : ℝ) (xs ys : List ℝ) : Prop := List.Forall₂ (fun x y => |x - y| ≤ K * |y|) xs ys

/-- the sum over the segments of duration times `Rabi rate (1 + |azimuthal angle|) + |detuning|` -/
noncomputable def printExposure (c : DrivenControl ℝ) : ℝ :=
  ((segmentList c).map fun (Ω, φ, Δ, τ) => τ * (Ω * (1 + |φ|) + |Δ|)).sum

/-- the sum over the pulses of `|Rabi rotation| (1 + |azimuthal angle|) + |detuning rotation|` -/
noncomputable def pulseExposure : List ℝ → List ℝ → List ℝ → ℝ
  | ω :: ωs, φ :: φs, δ :: δs => |ω| * (1 + |φ|) + |δ| + pulseExposure ωs φs δs
  | _, _, _ => 0

end OpenControls.Spec
