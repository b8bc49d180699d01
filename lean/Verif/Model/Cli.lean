/-!
# The command that converts files

`pywr-cli/src/main.rs:179-267`. Files are texts and directories have names of entries; links, permissions, disks that are full and
changes by others are left out. Reading, converting and printing of a text are given by a `Tool`: what the conversion of a model is, is
the subject of `Model/V1Model.lean` and others. The messages of conversions are left out.
-/

namespace Verif.Cli

abbrev Path := List String

inductive Item
  | file (text : String)
  | dir
  deriving DecidableEq, Repr

/-- What is at a path. -/
abbrev Disk := Path → Option Item

/-- `std::fs::write`: a file is replaced or created if its directory is there. -/
def Disk.write (d : Disk) (p : Path) (text : String) : Option Disk :=
  if d p = some .dir then none
  else if d p.dropLast = some .dir then some fun q => if q = p then some (.file text) else d q
  else none

/-- `serde_json::from_str`, `from_v1` with its list of errors, and `serde_json::to_string_pretty`, for models (main.rs 236-248) or for
networks (221-234). -/
structure Tool where
  Old : Type
  New : Type
  parse : String → Option Old
  convert : Old → New × List String
  print : New → Option String

inductive Fault
  | outputNotDir
  | outputNotFile
  | notRead
  | notParsed
  | stopped
  | notPrinted
  | notWritten
  deriving DecidableEq, Repr

/-- `handle_conversion_errors`, main.rs 253-267. -/
def handleErrors (errors : List String) (stop : Bool) : Except Fault Unit :=
  if !errors.isEmpty then
    if stop then .error .stopped else .ok ()
  else .ok ()

/-- `v1_to_v2`, main.rs 216-251. -/
def v1ToV2 (T : Tool) (stop : Bool) (d : Disk) (i o : Path) : Except Fault Disk :=
  match d i with
  | some (.file text) =>
    match T.parse text with
    | none => .error .notParsed
    | some a =>
      match handleErrors (T.convert a).2 stop with
      | .error e => .error e
      | .ok _ =>
        match T.print (T.convert a).1 with
        | none => .error .notPrinted
        | some t =>
          match d.write o t with
          | none => .error .notWritten
          | some d' => .ok d'
  | _ => .error .notRead

/-- `Path::extension` of a name: what follows its last dot, unless the name begins with it. -/
def extension (name : String) : Option String :=
  if name = ".." then none
  else
    match name.toList.reverse.span (fun c => c != '.') with
    | (_, []) => none
    | (_, [_]) => none
    | (after, _ :: _ :: _) => some (String.ofList after.reverse)

/-- The loop over the entries of a directory, main.rs 185-204: the first error ends it. -/
def convertAll (T : Tool) (stop : Bool) (i o : Path) : Disk → List String → Disk × Option Fault
  | d, [] => (d, none)
  | d, n :: ns =>
    match d (i ++ [n]) with
    | some (.file _) =>
      if extension n = some "json" then
        match v1ToV2 T stop d (i ++ [n]) (o ++ [n]) with
        | .error e => (d, some e)
        | .ok d' => convertAll T stop i o d' ns
      else convertAll T stop i o d ns
    | _ => convertAll T stop i o d ns

/-- `convert`, main.rs 179-214: the disk afterwards, and the error if there is one. `entries` are those of the input directory in the
order in which `read_dir` finds them, which is that of the file system. -/
def convert (model network : Tool) (stop networkOnly : Bool) (entries : List String) (d : Disk) (i o : Path) : Disk × Option Fault :=
  let T := if networkOnly then network else model
  if d i = some .dir then
    if d o = some .dir then convertAll T stop i o d entries else (d, some .outputNotDir)
  else if d o = some .dir then (d, some .outputNotFile)
  else
    match v1ToV2 T stop d i o with
    | .error e => (d, some e)
    | .ok d' => (d', none)

end Verif.Cli
