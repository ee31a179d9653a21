import Verif.Model.Cmdline
/-! Specification vocabulary for C89 and C90: where the files of a conversion are, and the contents of the file system after some writes. -/
set_option autoImplicit false
namespace Verif.Spec
open Verif

/-- the name of a file without its extension: the last dot and what follows, unless the dot is the first or the last character -/
def IsStem (name stem : PyStr) : Prop :=
  (∃ ext, stem ≠ [] ∧ ext ≠ [] ∧ 46 ∉ ext ∧ name = stem ++ lit "." ++ ext) ∨
  ((∀ s ext : PyStr, name = s ++ lit "." ++ ext → s = [] ∨ ext = [] ∨ 46 ∈ ext) ∧ stem = name)

/-- the folder for the output: that of the option `--path`, or the folder of the input -/
def outFolder (a : UfoArgs) : PyStr := a.path.getD a.input.dir

/-- the extension of the UFOs -/
def ufoExt (a : UfoArgs) : PyStr := if a.json = true then lit "json" else if a.zip = true then lit "ufoz" else lit "ufo"

/-- the path of the UFO number `i` -/
def ufoFile (a : UfoArgs) (stem : PyStr) (i : Nat) : FPath :=
  ⟨outFolder a, stem ++ (if i = 0 then [] else lit "-" ++ natDec i) ++ lit "." ++ ufoExt a⟩

/-- the path of the designspace document -/
def dsPath (a : UfoArgs) (stem : PyStr) : FPath := ⟨outFolder a, stem ++ lit ".designspace"⟩

/-- a UFO as it is on disk at the end -/
def savedUfo {ASM : Type} (a : UfoArgs) (u : UfoFont ASM) : DiskFile ASM :=
  if a.json = true then .json (!a.zip) u else .ufo a.zip (!a.no_normalize && !a.zip) u

/-- the files of a conversion, in the order in which they are written -/
def outputs {ASM : Type} (a : UfoArgs) (stem : PyStr) (ufos : List (UfoFont ASM)) (ds : Option DsDoc) : List (FPath × DiskFile ASM) :=
  (ufos.zipIdx.map fun x => (ufoFile a stem x.2, savedUfo a x.1)) ++ ds.toList.map fun d => (dsPath a stem, .designspace d)

/-- what is at the path `p` after the files `ws` have been written in this order -/
def contentAfter {ASM : Type} (fs : Files ASM) (ws : List (FPath × DiskFile ASM)) (p : FPath) : Option (DiskFile ASM) :=
  match ws.reverse.find? (fun w => decide (w.1 = p)) with
  | some w => some w.2
  | none => fs p

/-- the file may not be written because there is something at its path; UFOs as JSON are not protected -/
def Blocked {ASM : Type} (a : UfoArgs) (fs : Files ASM) (w : FPath × DiskFile ASM) : Prop :=
  a.force_overwrite = false ∧ fs w.1 ≠ none ∧ (a.json = true → ∃ d, w.2 = .designspace d)

end Verif.Spec
