import Verif.Common.Outcome
import Mathlib.Data.List.Basic
import Mathlib.Data.List.Infix

/-!
# Model of the file names and file conversions of the Python interface

`src/vmecpp/_util.py`, `src/vmecpp/__init__.py`, `src/vmecpp/__main__.py`, `src/vmecpp/simsopt_compat.py`.
A Python string is its list of characters. Paths are reduced to their last component (`Path.name`); the directory is
one map from names to contents.
-/
namespace Verif.PyFiles
open Verif

abbrev Str := List Char

/-- `"input."`, `".json"`, `"wout_"`, `".nc"`, `"input"`, `"&INDATA"` -/
def sInputDot : Str := ['i', 'n', 'p', 'u', 't', '.']
def sDotJson : Str := ['.', 'j', 's', 'o', 'n']
def sWout : Str := ['w', 'o', 'u', 't', '_']
def sDotNc : Str := ['.', 'n', 'c']
def sInput : Str := ['i', 'n', 'p', 'u', 't']
def sIndata : Str := ['&', 'I', 'N', 'D', 'A', 'T', 'A']

/-- `s.startswith(p)`, `s.endswith(p)` -/
def startswith (s p : Str) : Bool := p.isPrefixOf s
def endswith (s p : Str) : Bool := p.isSuffixOf s
/-- `s.removeprefix(p)`, `s.removesuffix(p)` -/
def removeprefix (s p : Str) : Str := if startswith s p then s.drop p.length else s
def removesuffix (s p : Str) : Str := if endswith s p then s.take (s.length - p.length) else s

/-- `s.split(".")` -/
def splitDot : Str → List Str
  | [] => [[]]
  | c :: cs =>
    if c = '.' then [] :: splitDot cs
    else match splitDot cs with
      | [] => [[c]]
      | w :: ws => (c :: w) :: ws

/-- `".".join(l)` -/
def joinDot : List Str → Str
  | [] => []
  | [w] => w
  | w :: w' :: ws => w ++ '.' :: joinDot (w' :: ws)

/-- `s.replace("input.", "")`; `fuel` bounds the number of steps, the length is enough -/
def dropInputAux : Nat → Str → Str
  | 0, s => s
  | _ + 1, [] => []
  | fuel + 1, c :: cs =>
    if startswith (c :: cs) sInputDot then dropInputAux fuel ((c :: cs).drop 6) else c :: dropInputAux fuel cs
def dropInput (s : Str) : Str := dropInputAux s.length s

/-- `get_vmec_configuration_name`, `_util.py:58-74` -/
def configurationName (filename : Str) : Outcome Str :=
  if endswith filename sDotJson then .ok (filename.take (filename.length - 5))
  else if startswith filename sInputDot then .ok (filename.drop 6)
  else if startswith filename sWout && endswith filename sDotNc then
    .ok ((filename.take (filename.length - 3)).drop 5)
  else .throws "ValueError: This does not look like a VMEC input or output file"

/-- `_make_wout_filename`, `simsopt_compat.py:580-600` -/
def makeWoutFilename (basename : Str) : Outcome Str :=
  if startswith basename sInputDot && endswith basename sDotJson then
    .ok (sWout ++ joinDot ((splitDot basename).tail.dropLast) ++ sDotNc)
  else if endswith basename sDotJson then .ok (sWout ++ removesuffix basename sDotJson ++ sDotNc)
  else if startswith basename sInputDot then .ok (sWout ++ removeprefix basename sInputDot ++ sDotNc)
  else .throws "RuntimeError: cannot be converted to output file name"

/-- the name of the INDATA file that `ensure_vmec2000_input` writes, `__init__.py:2555-2556` -/
def indataName (basename : Str) : Str :=
  sInputDot ++ removeprefix (removesuffix basename sDotJson) sInputDot

/-- the name of the file `vmecpp convert` writes, `__main__.py:76-77` -/
def convertName (basename : Str) : Str := dropInput basename ++ sDotJson

/-- white space as stripped by `str.strip` (ASCII part) -/
def isSpace (c : Char) : Bool := c = ' ' || c = '\t' || c = '\n' || c = '\r'
def lstrip : Str → Str
  | [] => []
  | c :: cs => if isSpace c then lstrip cs else c :: cs
def strip (s : Str) : Str := (lstrip (lstrip s).reverse).reverse

/-- `is_vmec2000_input`, `__init__.py:2484-2494`, on the lines of the file -/
def isVmec2000Input : List Str → Bool
  | [] => false
  | line :: lines =>
    let stripped := strip line
    if stripped.isEmpty || startswith stripped ['!'] then isVmec2000Input lines
    else stripped == sIndata

/-- a directory: the lines of every file in it -/
abbrev Dir := Str → Option (List Str)

/-- what a body or a function leaves behind: the directory and how it ended -/
structure Ended (α : Type) where
  dir : Dir
  out : Outcome α

/-- `ensure_vmecpp_input`, `__init__.py:2497-2530`, with the `with` body as an argument. `indata2json` stands for the
    conversion by the external program (`_util.indata_to_json`), `pid` for the process id in decimal. -/
def ensureVmecppInput {α : Type} (indata2json : List Str → Outcome (List Str)) (pid : Str) (f : Str) (d : Dir)
    (body : Str → Dir → Ended α) : Ended α :=
  match d f with
  | none => ⟨d, .throws "FileNotFoundError"⟩
  | some lines =>
    if isVmec2000Input lines then
      match configurationName f with
      | .ok name =>
        let output_file := name ++ '.' :: pid ++ sDotJson
        match indata2json lines with
        | .ok json =>
          let e := body output_file (fun g => if g = output_file then some json else d g)
          match e.dir output_file with
          | some _ => ⟨fun g => if g = output_file then none else e.dir g, e.out⟩
          | none => ⟨e.dir, .throws "FileNotFoundError"⟩
        | .throws m => ⟨d, .throws m⟩
        | _ => ⟨d, .throws "conversion failed"⟩
      | .throws m => ⟨d, .throws m⟩
      | _ => ⟨d, .throws "unreachable"⟩
    else body f d

/-- what the command line program does, in order -/
inductive Event | ran | saved (name : Str) | converted (name : Str)
  deriving DecidableEq, Repr

/-- `main` of `__main__.py` for `vmecpp FILE`, 82-103. `loads` says whether `VmecInput.from_file` accepts the (converted)
    contents, `solves` whether `vmecpp.run` returns; `from_file` (`__init__.py:658-674`) goes through `ensure_vmecpp_input` -/
def mainRun (f : Str) (isIndata loads solves : Bool) : List Event × Outcome Unit :=
  let named := if isIndata then (configurationName f).bind (fun _ => .ok ()) else .ok ()
  match named with
  | .ok () =>
    if !loads then ([], .throws "ValidationError")
    else if !solves then ([], .throws "RuntimeError")
    else match configurationName f with
      | .ok name => ([.ran, .saved (sWout ++ name ++ sDotNc)], .ok ())
      | .throws m => ([.ran], .throws m)
      | _ => ([.ran], .throws "unreachable")
  | .throws m => ([], .throws m)
  | _ => ([], .throws "unreachable")

/-- `vmecpp convert FILE`, 74-80 -/
def mainConvert (f : Str) (isIndata loads : Bool) : List Event × Outcome Unit :=
  let named := if isIndata then (configurationName f).bind (fun _ => .ok ()) else .ok ()
  match named with
  | .ok () => if !loads then ([], .throws "ValidationError") else ([.converted (convertName f)], .ok ())
  | .throws m => ([], .throws m)
  | _ => ([], .throws "unreachable")

end Verif.PyFiles
