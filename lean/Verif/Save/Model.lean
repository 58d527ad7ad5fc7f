import Verif.Base.Dict

/-!
Model of the stages that write results: `/repo/zigzag/stages/results/save.py`, `/repo/zigzag/stages/results/visualization.py`
(the text file with the loop orders) and `SkipIfDumpExistsStage` of `/repo/zigzag/stages/run_opt_stages.py`.

A file system is a dictionary from paths to contents, directories are left out (they are created on demand, lines 58, 105), except
for the empty directory name.  A run is the list of what it does, in order: truncating a file, appending a byte to a file, yielding a
result, raising.  A crash stops the run after any number of these; since files are closed (and flushed) before the next result is
asked for, bytes that are still in a buffer at a crash belong to the file written last, so a crash with lost bytes leaves the same
files as a crash some bytes earlier.
-/

namespace Verif.Save

/-- Paths and names are texts. -/
abbrev Path := List Char

variable {B R : Type}

/-- Contents of files. -/
abbrev FS (B : Type) := Dict Path (List B)

/-- What a run does. -/
inductive Ev (B R : Type)
  /-- `open(path, "w")` -/
  | trunc (p : Path)
  /-- one more byte at the end of an open file -/
  | put (p : Path) (b : B)
  /-- the stage yields -/
  | out (r : R)
  | raise (e : PyErr)

/-- Effect on the files. -/
def apply (fs : FS B) : Ev B R → FS B
  | .trunc p => fs.set p []
  | .put p b => fs.set p (((fs.get? p).getD []) ++ [b])
  | .out _ => fs
  | .raise _ => fs

/-- Files after a list of events. -/
def after (fs : FS B) (evs : List (Ev B R)) : FS B := evs.foldl apply fs

/-- Results yielded by a list of events. -/
def yields : List (Ev B R) → List R
  | [] => []
  | .out r :: t => r :: yields t
  | .trunc _ :: t => yields t
  | .put _ _ :: t => yields t
  | .raise _ :: t => yields t

/-- The exception a list of events ends with. -/
def raised : List (Ev B R) → Option PyErr
  | [] => none
  | .raise e :: _ => some e
  | .out _ :: t => raised t
  | .trunc _ :: t => raised t
  | .put _ _ :: t => raised t

/-- Class of a result (save.py:38-45, 85-92). -/
inductive Kind
  | cumulative
  | layer (name : List Char)
  | other
deriving DecidableEq

/-- `layer_name.replace("/", "_")` (save.py:42, 89). -/
def noSlash (name : List Char) : List Char := name.map fun c => if c = '/' then '_' else c

/-- File of a result (save.py:38-45 with `suffix = "_complete.json"`, save.py:85-92 with `"_simple.json"`). -/
def fileName (folder : Path) (suffix : List Char) : Kind → Except PyErr Path
  | .cumulative => .ok (folder ++ "/overall".toList ++ suffix)
  | .layer name => .ok (folder ++ ['/'] ++ noSlash name ++ suffix)
  | .other => .error .notImplemented

/-- A save stage over the results of its sub-stage (save.py:34-60 and 81-111).  `kind` and `text` describe a result; the encoder may
raise after a part of the text (`snd`). -/
def saveRun (folder : Path) (suffix : List Char) (kind : R → Kind) (text : R → List B × Option PyErr) : List R → List (Ev B R)
  | [] => []
  | r :: rs =>
    match fileName folder suffix (kind r) with
    | .error e => [.raise e]
    | .ok p =>
      .trunc p :: (text r).1.map (.put p) ++
        match (text r).2 with
        | some e => [.raise e]
        | none => .out r :: saveRun folder suffix kind text rs

/-- `VisualizationStage.run` (visualization.py:29-47): the loop order of every single result is appended to one file. -/
def orderRun (p : Path) (single : R → Bool) (text : R → List B) : List R → List (Ev B R)
  | [] => []
  | r :: rs => (if single r then (text r).map (.put p) else []) ++ .out r :: orderRun p single text rs

/-- `PickleSaveStage.run` (save.py:132-156).  `all r` is the list of results in the extra information of a yielded result; `enc` is the
pickled text.  The variable `all_cmes` is the one of the last iteration; without iterations the use of the variable raises `NameError`,
which is caught after the file was opened.  The directory of a path
without slash is the empty text, which does not exist and cannot be created: `os.makedirs` raises (`FileNotFoundError`, here `runtimeError`). -/
def pickleRun {C : Type} (p : Path) (all : R → List C) (enc : List C → List B) (rs : List R) : List (Ev B R) :=
  rs.map .out ++
    if p.all (fun c => decide (c ≠ '/')) then [.raise .runtimeError]
    else
      match rs.getLast? with
      | none => [.trunc p]
      | some r => .trunc p :: (enc (all r)).map (.put p)

/-- `SkipIfDumpExistsStage.run` (run_opt_stages.py:62-73): `path` is the formatted name, `sub` the run of the sub-stages. -/
def skipRun (path : Path) (fs : FS B) (sub : List (Ev B R)) : List (Ev B R) :=
  if (fs.get? path).isSome then [] else sub

end Verif.Save
