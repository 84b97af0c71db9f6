import Verif.Spec.Reports
import Verif.Proofs.Conversion

/-!
# The reports do not change the outcome
-/

namespace OpenControls

open PyFloat Py Spec

variable {α : Type} [Add α] [Sub α] [Mul α] [Div α] [Neg α] [PyFloat α] {β γ : Type}

theorem sameCall_rfl_ok (b : β) : SameCall (.ok b : Except (Raised α) β) (.ok b) := rfl

theorem sameCall_bind {x : Except (Raised α) β} {y : Except PyErr β} {f : β → Except (Raised α) γ}
    {g : β → Except PyErr γ} (h : SameCall x y) (hf : ∀ b, SameCall (f b) (g b)) :
    SameCall (x >>= f) (y >>= g) := by
  match x, y, h with
  | .ok b, .ok c, h => cases h; exact hf b
  | .error (.report r), .error (.arguments d), h => exact h
  | .error (.other e), .error e', h => exact h

theorem sameCall_check (c : Bool) (d : String) (a : List (String × Reported α))
    (e : Option (List (String × Reported α))) : SameCall (checkR c d a e) (checkArguments c d) := by
  cases c
  · exact ⟨"", by simp⟩
  · rfl

theorem sameCall_check' (c : Bool) (d d' : String) (a : List (String × Reported α))
    (e : Option (List (String × Reported α))) : SameCall (checkR c (d ++ d') a e) (checkArguments c d) := by
  cases c
  · exact ⟨d', rfl⟩
  · rfl

/-- a step that raises no `ArgumentsValueError` -/
def Quiet (y : Except PyErr β) : Prop := ∀ e, y = .error e → e.isArguments = false

theorem sameCall_lift {y : Except PyErr β} (h : Quiet y) : SameCall (liftR (α := α) y) y := by
  cases y with
  | ok b => rfl
  | error e => exact ⟨rfl, h e rfl⟩

theorem Quiet.bind {y : Except PyErr β} {g : β → Except PyErr γ} (h : Quiet y) (hg : ∀ b, Quiet (g b)) :
    Quiet (y >>= g) := by
  cases y with
  | ok b => exact hg b
  | error e => intro e' he; cases he; exact h e rfl

theorem Quiet.ok (b : β) : Quiet (.ok b : Except PyErr β) := fun e h => by cases h
theorem Quiet.pure (b : β) : Quiet (pure b : Except PyErr β) := fun e h => by cases h

theorem quiet_pyInt (x : α) : Quiet (pyInt x) := by
  intro e h
  unfold pyInt at h
  split at h <;> cases h
  rfl

theorem quiet_pyCeil (x : α) : Quiet (pyCeil x) := by
  intro e h
  unfold pyCeil at h
  split at h <;> cases h
  rfl

theorem quiet_npAmax (l : List α) : Quiet (npAmax l) := by
  intro e h
  cases l <;> cases h
  rfl

theorem quiet_walshOffsets (T : α) (k : ℕ) : Quiet (walshOffsets T k) := by
  unfold walshOffsets
  refine Quiet.bind (Quiet.bind (quiet_pyInt _) fun _ => Quiet.pure _) fun w => ?_
  refine Quiet.bind (Quiet.bind (quiet_pyCeil _) fun _ => Quiet.pure _) fun x => ?_
  refine Quiet.bind ?_ fun b => Quiet.bind ?_ fun a => Quiet.pure _
  · intro e h
    unfold walshBinaryOrder at h
    dsimp only at h
    split at h <;> cases h
    rfl
  · intro e h
    unfold walshArray at h
    split at h <;> cases h
    rfl

theorem quiet_modulated (Ω T f : α) (m b : List α) : Quiet (modulatedSegments Ω T f m b) :=
  Quiet.bind (quiet_npAmax _) fun _ => Quiet.pure _

theorem quiet_unmodulated (Ω t : α) (b : List α) : Quiet (unmodulatedSegments Ω t b) :=
  Quiet.bind (quiet_npAmax _) fun _ => Quiet.pure _

theorem sameCall_control (ds : List α) (rs as dets : Option (List α)) (name : Option String) :
    SameCall (DrivenControl.newR ds rs as dets name) (DrivenControl.new ds rs as dets name) :=
  sameCall_bind (sameCall_check _ _ _ _) fun _ => sameCall_bind (sameCall_check _ _ _ _) fun _ =>
    sameCall_bind (sameCall_check _ _ _ _) fun _ => rfl

theorem sameCall_sequence (T : α) (os rs as ds : List α) (name : Option String) :
    SameCall (Sequence.newR T os rs as ds name) (Sequence.new T os rs as ds name) :=
  sameCall_bind (sameCall_check _ _ _ _) fun _ => sameCall_bind (sameCall_check _ _ _ _) fun _ =>
    sameCall_bind (sameCall_check _ _ _ _) fun _ => sameCall_bind (sameCall_check _ _ _ _) fun _ =>
      sameCall_bind (sameCall_check _ _ _ _) fun _ => rfl

theorem sameCall_validate (θ Ω : α) : SameCall (validateRabiParametersR θ Ω) (validateRabiParameters θ Ω) :=
  sameCall_bind (sameCall_check _ _ _ _) fun _ => sameCall_check _ _ _ _

theorem sameCall_wimperis (θ : α) :
    SameCall (transformedRabiRotationWimperisR θ) (transformedRabiRotationWimperis θ) :=
  sameCall_bind (sameCall_check _ _ _ _) fun _ => rfl

theorem sameCall_scheme (s : Scheme) (θ Ω φ : α) (name : Option String) :
    SameCall (s.callR θ Ω φ name) (s.call θ Ω φ name) := by
  cases s
  case primitive | corpse => exact sameCall_bind (sameCall_validate _ _) fun _ => sameCall_control _ _ _ _ _
  case bb1 | sk1 | corpseInBB1 | corpseInSK1 =>
    exact sameCall_bind (sameCall_validate _ _) fun _ => sameCall_bind (sameCall_wimperis _) fun _ => sameCall_control _ _ _ _ _
  case scrofulous | corpseInScrofulous | wamf1 =>
    exact sameCall_bind (sameCall_validate _ _) fun _ => sameCall_bind (sameCall_check _ _ _ _) fun _ => sameCall_control _ _ _ _ _

theorem sameCall_gaussian (Ω d T f : α) :
    SameCall (newModulatedGaussianControlR Ω d T f) (newModulatedGaussianControl Ω d T f) := by
  refine sameCall_bind (sameCall_check _ _ _ _) fun _ => sameCall_bind (sameCall_check _ _ _ _) fun _ =>
    sameCall_bind (sameCall_check _ _ _ _) fun _ => sameCall_bind (sameCall_check _ _ _ _) fun _ =>
    sameCall_bind (sameCall_lift (quiet_pyCeil _)) fun n => sameCall_bind (sameCall_lift ?_) fun _ => sameCall_control _ _ _ _ _
  split
  · exact quiet_modulated _ _ _ _ _
  · exact quiet_unmodulated _ _ _

theorem sameCall_prePost (T : α) (p : Pulses α) :
    SameCall (addPrePostRotationsR T p) (addPrePostRotations T p) :=
  sameCall_bind (sameCall_check _ _ _ _) fun _ => rfl

theorem sameCall_finish (T : α) (b : Bool) (name : Option String) (p : Pulses α) :
    SameCall (finishSequenceR T b name p) (finishSequence T b name p) := by
  unfold finishSequenceR finishSequence
  cases b
  · exact sameCall_sequence _ _ _ _ _ _
  · exact sameCall_bind (sameCall_prePost T p) fun _ => sameCall_sequence _ _ _ _ _ _

theorem sameCall_duration (T : α) : SameCall (checkDurationR T) (checkDuration T) := sameCall_check _ _ _ _

/-- the predefined sequences, with their reports -/
def Spec.Predefined.callR (s : Predefined α) (T : α) (prePost : Bool) (name : Option String) :
    Except (Raised α) (Sequence α) :=
  match s with
  | .ramsey => newRamseySequenceR T prePost name
  | .spinEcho => newSpinEchoSequenceR T prePost name
  | .carrPurcell n => newCarrPurcellSequenceR T n prePost name
  | .cpmg n => newCPMGSequenceR T n prePost name
  | .uhrig n => newUhrigSequenceR T n prePost name
  | .periodic n => newPeriodicSequenceR T n prePost name
  | .walsh k => newWalshSequenceR T k prePost name
  | .quadratic n m => newQuadraticSequenceR T n m prePost name
  | .xConcatenated l => newXConcatenatedSequenceR T l prePost name
  | .xyConcatenated l => newXYConcatenatedSequenceR T l prePost name

theorem sameCall_predefined (s : Predefined α) (T : α) (b : Bool) (name : Option String) :
    SameCall (s.callR T b name) (s.call T b name) := by
  cases s
  case ramsey =>
    refine sameCall_bind (sameCall_duration T) fun _ => ?_
    cases b <;> exact sameCall_sequence _ _ _ _ _ _
  case spinEcho => exact sameCall_bind (sameCall_duration T) fun _ => sameCall_finish _ _ _ _
  case walsh =>
    exact sameCall_bind (sameCall_duration T) fun _ => sameCall_bind (sameCall_check _ _ _ _) fun _ =>
      sameCall_bind (sameCall_lift (quiet_pyInt _)) fun _ => sameCall_bind (sameCall_lift (quiet_walshOffsets _ _)) fun _ =>
        sameCall_finish _ _ _ _
  case quadratic =>
    exact sameCall_bind (sameCall_duration T) fun _ => sameCall_bind (sameCall_check _ _ _ _) fun _ =>
      sameCall_bind (sameCall_check _ _ _ _) fun _ => sameCall_bind (sameCall_lift (quiet_pyInt _)) fun _ =>
        sameCall_bind (sameCall_lift (quiet_pyInt _)) fun _ => sameCall_finish _ _ _ _
  all_goals
    exact sameCall_bind (sameCall_duration T) fun _ => sameCall_bind (sameCall_check _ _ _ _) fun _ =>
      sameCall_bind (sameCall_lift (quiet_pyInt _)) fun _ => sameCall_finish _ _ _ _

theorem sameCall_convert (s : Sequence α) (R D m : α) (name : Option String) :
    SameCall (convertDDSR s R D m name) (convertDDS s R D m name) := by
  rw [convertDDS_eq]
  refine sameCall_bind (sameCall_check _ _ _ _) fun _ => sameCall_bind (sameCall_check _ _ _ _) fun _ =>
    sameCall_bind (sameCall_check _ _ _ _) fun _ => sameCall_bind (sameCall_check _ _ _ _) fun _ =>
    sameCall_bind (sameCall_check _ _ _ _) fun _ => sameCall_bind (sameCall_check' _ _ _ _ _) fun _ =>
    sameCall_bind (sameCall_check' _ _ _ _ _) fun _ => ?_
  split <;> exact sameCall_control _ _ _ _ _

theorem sameCall_plot (c : DrivenControl α) (coordinates : String) (b : Bool) :
    SameCall (c.exportPlotR coordinates b) (c.exportPlot coordinates b) := by
  refine sameCall_bind (sameCall_check _ _ _ _) fun _ => sameCall_bind (sameCall_lift ?_) fun _ => rfl
  cases b
  · exact Quiet.ok _
  · exact quiet_npAmax _

end OpenControls
