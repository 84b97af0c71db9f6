import Verif.Spec.Interrupted
import Verif.Proofs.Interrupted
import Verif.Proofs.Export

/-!
# The writing loop on a failing operating system
-/

namespace OpenControls

set_option linter.unusedSectionVars false

open PyFloat Spec Py

variable {α : Type} [Add α] [Sub α] [Mul α] [Div α] [Neg α] [PyFloat α]

/-- result and text if nothing fails -/
def upTo : List (Except PyErr (List Char)) → Except PyErr Unit × List Char
  | [] => (.ok (), [])
  | .error e :: _ => (.error e, [])
  | .ok piece :: pieces => ((upTo pieces).1, piece ++ (upTo pieces).2)

theorem writePieces_spec (os : Os) (k : ℕ) (written : List Char) (pieces : List (Except PyErr (List Char))) :
    (writePieces os k written pieces).2 <+: written ++ (upTo pieces).2 ∧
    ((writePieces os k written pieces).1 = .osError ∨
      (writePieces os k written pieces).1 = .of (upTo pieces).1 ∧
      (writePieces os k written pieces).2 = written ++ (upTo pieces).2) ∧
    ((∀ k, os.fails k = none) → (writePieces os k written pieces).1 = .of (upTo pieces).1) := by
  induction pieces generalizing k written with
  | nil =>
    rw [writePieces, upTo]
    cases h : os.fails k with
    | none => simp [Outcome.of]
    | some n =>
      refine ⟨by simpa using List.take_prefix n written, by simp, fun hk => ?_⟩
      rw [hk] at h; cases h
  | cons p pieces ih =>
    cases p with
    | error e =>
      rw [writePieces, upTo]
      cases h : os.fails k with
      | none => simp [Outcome.of]
      | some n =>
        refine ⟨by simpa using List.take_prefix n written, by simp, fun hk => ?_⟩
        rw [hk] at h; cases h
    | ok piece =>
      rw [writePieces, upTo]
      cases h : os.fails k with
      | none =>
        have := ih (k + 1) (written ++ piece)
        rwa [List.append_assoc] at this
      | some n =>
        refine ⟨?_, by simp, fun hk => ?_⟩
        · rw [← List.append_assoc]
          exact (List.take_prefix n _).trans (List.prefix_append _ _)
        · rw [hk] at h; cases h

theorem upTo_ok (pieces : List (List Char)) : upTo (pieces.map .ok) = (.ok (), pieces.flatten) := by
  induction pieces with
  | nil => rfl
  | cons p pieces ih => simp [upTo, ih]

theorem writeRows_upTo (fmt : α → String) (fs : FileSystem α) (filename : String) (header : List String)
    (info : List (String × Val α)) (done : List (List α)) (is : List Nat) :
    ∃ res rows, writeRows fs filename header info done is =
        (res, fs.write filename (.csv header (done ++ rows))) ∧
      upTo (is.map fun index => (csvRow info header index).map fun row => csvLine (row.map fun x => (fmt x).toList)) =
        (res, rows.flatMap fun row => csvLine (row.map fun x => (fmt x).toList)) := by
  induction is generalizing done with
  | nil => exact ⟨.ok (), [], by simp [writeRows], by simp [upTo]⟩
  | cons i is ih =>
    simp only [writeRows, List.map_cons]
    cases h : csvRow info header i with
    | error e => exact ⟨.error e, [], by simp, by simp [Except.map, upTo]⟩
    | ok row =>
      obtain ⟨res, rows, h1, h2⟩ := ih (done ++ [row])
      exact ⟨res, row :: rows, by simpa using h1, by rw [Except.map, upTo, h2]; rfl⟩

theorem writeFile_interrupted (fmt : α → String) (os : Os) (disk : Disk) (filename : String)
    (pieces : List (Except PyErr (List Char))) (res : Except PyErr Unit) (content : FileContent α)
    (h : upTo pieces = (res, fileText fmt content)) (fs : FileSystem α) :
    Interrupted fmt os disk filename (res, fs.write filename content) (writeFile os disk filename pieces) := by
  obtain ⟨h1, h2, h3⟩ := writePieces_spec os 0 [] pieces
  rw [h, List.nil_append] at h1 h2
  rw [h] at h3
  have hc : (fs.write filename content) filename = some content := by simp [FileSystem.write]
  unfold writeFile
  refine ⟨?_, ?_, ?_, ?_, ?_⟩
  · intro f hf
    split_ifs
    · simp [Disk.put, hf]
    · rfl
  · intro hn
    exact absurd (hc.symm.trans hn) (by simp)
  · intro _ ho
    simp [ho]
  · intro content' hc' ho
    obtain rfl := Option.some.inj (hc.symm.trans hc')
    rw [if_pos ho]
    exact ⟨_, h1, by simp [Disk.put], h2⟩
  · intro ho hk
    rw [if_pos ho]
    exact h3 hk

/-- calls before the one that closes the file -/
def okCount : List (Except PyErr (List Char)) → ℕ
  | .ok _ :: pieces => okCount pieces + 1
  | _ => 0

theorem writePieces_stop (n K k : ℕ) (written : List Char) (pieces : List (Except PyErr (List Char)))
    (hK : K = k + okCount pieces) :
    writePieces ⟨true, fun i => if i = K then some n else none⟩ k written pieces =
      (.osError, (written ++ (upTo pieces).2).take n) := by
  induction pieces generalizing k written with
  | nil =>
    have : k = K := by simpa [okCount] using hK.symm
    simp [writePieces, upTo, this]
  | cons p pieces ih =>
    cases p with
    | error e =>
      have : k = K := by simpa [okCount] using hK.symm
      simp [writePieces, upTo, this]
    | ok piece =>
      rw [okCount] at hK
      rw [writePieces, upTo]
      simp only [show k ≠ K by omega, if_false]
      rw [ih (k + 1) _ (by omega), List.append_assoc]

/-- the export writes nothing, or it writes the pieces of the text -/
theorem exportToDisk_cases (fmt : α → String) (divide : List Char → List (List Char))
    (hdivide : ∀ s, (divide s).flatten = s) (c : DrivenControl α) (filename fileFormat fileType coordinates : String) :
    (∃ res, c.exportToFile (fun _ => none) filename fileFormat fileType coordinates = (res, fun _ => none) ∧
      ∀ os disk, c.exportToDisk fmt divide os disk filename fileFormat fileType coordinates = (.of res, disk)) ∨
    (∃ res content pieces, c.exportToFile (fun _ => none) filename fileFormat fileType coordinates =
        (res, FileSystem.write (fun _ => none) filename content) ∧
      upTo pieces = (res, fileText fmt content) ∧
      ∀ os disk, c.exportToDisk fmt divide os disk filename fileFormat fileType coordinates =
        writeFile os disk filename pieces) := by
  unfold DrivenControl.exportToFile DrivenControl.exportToDisk
  split_ifs
  · exact .inl ⟨.error _, rfl, fun _ _ => rfl⟩
  · exact .inl ⟨.error _, rfl, fun _ _ => rfl⟩
  · exact .inl ⟨.error _, rfl, fun _ _ => rfl⟩
  · unfold DrivenControl.exportExpanded DrivenControl.exportExpandedDisk
    cases c.exportContent coordinates with
    | error e => exact .inl ⟨.error _, rfl, fun _ _ => rfl⟩
    | ok info =>
      dsimp only
      split_ifs
      · cases dictGet "name" info with
        | none => exact .inl ⟨.error _, rfl, fun _ _ => rfl⟩
        | some v =>
          cases c.maximumRabiRate with
          | error e => exact .inl ⟨.error _, rfl, fun _ _ => rfl⟩
          | ok m =>
            dsimp only
            obtain ⟨res, rows, h1, h2⟩ := writeRows_upTo fmt (fun _ => none) filename
              (sortStrings ((dictSet "maximum_rabi_rate" (.arr (List.replicate c.numberOfSegments m))
                (dictErase "name" info)).map Prod.fst))
              (dictSet "maximum_rabi_rate" (.arr (List.replicate c.numberOfSegments m)) (dictErase "name" info)) []
              (List.range c.numberOfSegments)
            rw [h1]
            refine .inr ⟨res, _, _, rfl, ?_, fun os disk => rfl⟩
            rw [upTo, h2]
            rfl
      · refine .inr ⟨.ok (), _, _, rfl, ?_, fun os disk => rfl⟩
        rw [upTo_ok, hdivide]
  · exact .inl ⟨.ok (), rfl, fun _ _ => rfl⟩

theorem nothing_interrupted (fmt : α → String) (os : Os) (disk : Disk) (filename : String)
    (res : Except PyErr Unit) : Interrupted fmt os disk filename (res, fun _ => none) (.of res, disk) where
  others _ _ := rfl
  nothing _ := rfl
  refused h := absurd rfl h
  opened _ h := by simp at h
  noFailure _ _ := rfl

end OpenControls
