import Verif.Spec.Files
/-! C43: reading an input file. -/
namespace L2J
open Spec

variable (fs : FS) (path ext : Str)

theorem open_file {p : Str} (h : fs.kind p = .file) :
    fs.open p = match fs.text p with | some s => .ok s | none => .error .other := by
  simp only [FS.open, h]; split <;> simp_all

theorem go_eq (l : List Str) : readTexFileContent.go fs l = match l.find? (fun p => fs.kind p = .file) with
    | some p => fs.open p
    | none => .error .fileNotFound := by
  induction l with
  | nil => rfl
  | cons q qs ih =>
    unfold readTexFileContent.go FS.exists
    rw [List.find?_cons, ih]
    cases fs.kind q <;> simp

/-- C43: the given path (without surrounding whitespace) is read if it is a file. -/
theorem C43_exact (h : fs.kind (strip path) = .file) :
    readTexFileContent fs path ext = fs.open (strip path) := by
  unfold readTexFileContent
  simp only []
  rw [go_eq]
  split <;> rename_i hq
  · split at hq <;> simp [h] at hq <;> subst hq <;> rfl
  · split at hq <;> simp [h] at hq

/-- C43: otherwise the path with the extension is read, if it is a file and the extension was not there already. -/
theorem C43_with_extension (h : fs.kind (strip path) ≠ .file) (he : ¬ ext <:+ strip path)
    (h' : fs.kind (strip path ++ ext) = .file) :
    readTexFileContent fs path ext = fs.open (strip path ++ ext) := by
  unfold readTexFileContent
  have : endsWith (strip path) ext = false := by
    cases hh : endsWith (strip path) ext with
    | false => rfl
    | true => exact absurd (by simpa [endsWith] using hh) he
  simp only []
  rw [go_eq, this]
  simp [h, h']

/-- C43: `FileNotFoundError` is raised exactly when neither is a file. -/
theorem C43_not_found : readTexFileContent fs path ext = .error .fileNotFound ↔
    fs.kind (strip path) ≠ .file ∧ (ext <:+ strip path ∨ fs.kind (strip path ++ ext) ≠ .file) := by
  by_cases h : fs.kind (strip path) = .file
  · rw [C43_exact fs path ext h, open_file fs h]
    cases fs.text (strip path) <;> simp [h]
  · by_cases he : ext <:+ strip path
    · unfold readTexFileContent
      simp only []
      rw [go_eq]
      have : endsWith (strip path) ext = true := by simpa [endsWith] using he
      simp [this, h, he]
    · by_cases h' : fs.kind (strip path ++ ext) = .file
      · rw [C43_with_extension fs path ext h he h', open_file fs h']
        cases fs.text (strip path ++ ext) <;> simp [h', he]
      · unfold readTexFileContent
        simp only []
        rw [go_eq]
        have : endsWith (strip path) ext = false := by
          cases hh : endsWith (strip path) ext with
          | false => rfl
          | true => exact absurd (by simpa [endsWith] using hh) he
        simp [this, h, h']

/- Non-vacuity (tests): `a` is a directory, `a.tex` a file. -/
example :
    let fs : FS := ⟨fun p => if p = "a".toList then .dir else if p = "a.tex".toList then .file else .absent,
      fun _ => some "x".toList, fun _ => []⟩
    readTexFileContent fs " a ".toList ".tex".toList = .ok "x".toList ∧
      readTexFileContent fs "b".toList ".tex".toList = .error .fileNotFound := by decide +kernel

end L2J
