import Mathlib.Data.List.Basic

/-!
# Files of data: where they are, checksums, and what old models said about them

Transcribed from `/repo/pywr-schema/src/digest.rs`, `make_path` (`data_tables/mod.rs:138-153`), the beginnings of
`CsvDataTable::load_f64` (`data_tables/mod.rs:104-109`), `TablesArrayParameter` (`parameters/tables.rs:42-57`),
`PandasTimeseries::load` (`timeseries/pandas.rs:71-126`, with `timeseries/pandas_load.py`) and `PolarsTimeseries::load` (`timeseries/polars_dataset.rs:40-52`), and the
conversion of data frames (`timeseries/mod.rs:470-550`) and table arrays (`parameters/tables.rs:108-138`).

Simplifications: paths are strings of a Unix system; the two digests are arbitrary functions from contents to bytes; a file
does not change between the check and the reading that follows it; what a file is parsed to is not modelled here (`Tables`,
`Timeseries`).
-/

namespace Verif.Files

/-- What a file holds; `none` if it cannot be read. -/
abbrev Disk := String → Option (List UInt8)

/-- MD5 and SHA256. -/
structure Digests where
  md5 : List UInt8 → List UInt8
  sha256 : List UInt8 → List UInt8

/-- `Checksum`, `digest.rs:35-40`. -/
inductive Checksum
  | md5 (hash : String)
  | sha256 (hash : String)
  deriving DecidableEq, Repr

/-- `ChecksumError`, `digest.rs:14-28`, and the failure of reading a file that is not checked. -/
inductive Err
  | mismatch (actual expected path : String)
  | io (path : String)
  deriving DecidableEq, Repr

/-- A digit of `hex::encode`. -/
def hexDigit (n : Nat) : Char := "0123456789abcdef".toList.getD n '0'

/-- `hex::encode`: two digits for each byte. -/
def hexEncode (bs : List UInt8) : String := String.ofList (bs.flatMap fun b => [hexDigit (b.toNat / 16), hexDigit (b.toNat % 16)])

/-- `validate_hex_digest`, `digest.rs:80-104`. -/
def validate (digest : List UInt8 → List UInt8) (disk : Disk) (path expected : String) : Except Err Unit :=
  match disk path with
  | none => .error (.io path)
  | some bytes =>
    let actual := hexEncode (digest bytes)
    if actual = expected then .ok () else .error (.mismatch actual expected path)

/-- `Checksum::check`, `digest.rs:42-49`. -/
def Checksum.check (H : Digests) (disk : Disk) (path : String) : Checksum → Except Err Unit
  | .md5 h => validate H.md5 disk path h
  | .sha256 h => validate H.sha256 disk path h

/-- `Path::is_relative`. -/
def isRelative (p : String) : Bool := !(p.toList.head? = some '/')

/-- `Path::join`, with a relative path. -/
def join (dir p : String) : String :=
  if dir.toList = [] ∨ dir.toList.getLast? = some '/' then dir ++ p else dir ++ "/" ++ p

/-- `make_path`, `data_tables/mod.rs:143-153`, and the same in `tables.rs:42-51`, `pandas.rs:75-81`, `polars_dataset.rs:41-47`. -/
def makePath (url : String) (dataPath : Option String) : String :=
  if isRelative url then
    match dataPath with
    | some dp => join dp url
    | none => url
  else url

/-- A file that a table, a parameter or a series names. -/
structure Source where
  url : String
  checksum : Option Checksum
  deriving DecidableEq, Repr

/-- The beginning of loading: the path, the check, and what is then read. -/
def Source.load (H : Digests) (disk : Disk) (dataPath : Option String) (s : Source) : Except Err (List UInt8) :=
  let fp := makePath s.url dataPath
  let checked : Except Err Unit :=
    match s.checksum with
    | some c => c.check H disk fp
    | none => .ok ()
  match checked with
  | .error e => .error e
  | .ok () =>
    match disk fp with
    | some bytes => .ok bytes
    | none => .error (.io fp)

/-! ## Old models -/

/-- A JSON value, as far as it is told apart. -/
inductive Json
  | str (s : String)
  | int (n : Int)
  | bool (b : Bool)
  | other (text : String)
  deriving DecidableEq, Repr

/-- A map with unique keys. -/
abbrev Map (α : Type) := List (String × α)

/-- `HashMap::get`. -/
def Map.get {α : Type} (m : Map α) (k : String) : Option α := (m.find? (·.1 == k)).map (·.2)

/-- `HashMap::remove`, what stays. -/
def Map.without {α : Type} (m : Map α) (k : String) : Map α := m.filter (·.1 != k)

/-- `Checksum::try_from_v1`, `digest.rs:54-78`. -/
def Checksum.ofV1 (m : Map String) : Option Checksum :=
  match m.get "md5" with
  | some h => some (.md5 h)
  | none =>
    match m.get "sha256" with
    | some h => some (.sha256 h)
    | none => none

/-- A data frame parameter of an old model. -/
structure Frame where
  name : String
  url : Option String
  table : Option String
  column : Option String
  scenario : Option String
  kwargs : Map Json
  checksum : Option (Map String)
  deriving DecidableEq, Repr

/-- `PandasTimeseries`, `pandas.rs:17-25`. -/
structure Pandas where
  name : String
  timeCol : Option String
  source : Source
  kwargs : Map Json
  deriving DecidableEq, Repr

/-- `TimeseriesColumns`. -/
inductive Columns
  | column (name : String)
  | scenario (name : String)
  deriving DecidableEq, Repr

/-- `ConvertedTimeseriesReference`. -/
structure Reference where
  original : String
  series : String
  columns : Option Columns
  deriving DecidableEq, Repr

/-- The errors of the conversion. -/
inductive ConvErr
  | missing (name : String)
  | ambiguous (name : String)
  | checksum (name : String)
  deriving DecidableEq, Repr

/-- The extension of a path: what follows the last dot of its last part, if something precedes it. -/
def extension (p : String) : Option String :=
  let last := (p.toList.reverse.takeWhile (· ≠ '/'))
  if last.contains '.' ∧ (last.dropWhile (· ≠ '.')) ≠ ['.'] then some (String.ofList (last.takeWhile (· ≠ '.')).reverse) else none

/-- `as_str` of a value. -/
def Json.asStr : Json → Option String
  | .str s => some s
  | _ => none

/-- `timeseries/mod.rs:478-505`: the series made of a data frame with a file. -/
def Frame.pandas (f : Frame) (url : String) : Pandas :=
  let timeCol := match f.kwargs.get "index_col" with
    | some v => v.asStr
    | none => none
  let kw := f.kwargs.without "index_col"
  let kw := if extension url = some "csv" then kw.without "parse_dates" else kw
  ⟨f.name, timeCol, ⟨url, f.checksum.bind Checksum.ofV1⟩, kw⟩

/-- `timeseries/mod.rs:470-550`: the reference and the series collected; series are kept once. -/
def Frame.convert (f : Frame) (made : List Pandas) : Except ConvErr Reference × List Pandas :=
  match f.url, f.table with
  | some url, _ =>
    let made' := if made.any (·.name == f.name) then made else made ++ [f.pandas url]
    (match f.column, f.scenario with
      | some c, none => .ok ⟨f.name, f.name, some (.column c)⟩
      | none, some c => .ok ⟨f.name, f.name, some (.scenario c)⟩
      | some _, some _ => .error (.ambiguous f.name)
      | none, none => .ok ⟨f.name, f.name, none⟩, made')
  | none, some t =>
    (match f.column, f.scenario with
      | some c, none => .ok ⟨f.name, t, some (.column c)⟩
      | none, some c => .ok ⟨f.name, t, some (.scenario c)⟩
      | some _, some _ => .error (.ambiguous f.name)
      | none, none => .ok ⟨f.name, t, none⟩, made)
  | none, none => (.error (.missing f.name), made)

/-- `tables.rs:108-138`, as far as the file goes: here an unknown checksum is an error. -/
def tablesArray (name url : String) (checksum : Option (Map String)) : Except ConvErr Source :=
  match checksum with
  | none => .ok ⟨url, none⟩
  | some m =>
    match Checksum.ofV1 m with
    | some c => .ok ⟨url, some c⟩
    | none => .error (.checksum name)

/-! ## The call of Pandas -/

/-- The functions that `load_pandas` chooses from, `timeseries/pandas_load.py:13-21`. -/
inductive Reader
  | csv
  | excel
  | hdf
  deriving DecidableEq, Repr

/-- The errors of a call in Python. -/
inductive CallErr
  | duplicate (key : String)
  | unsupported
  deriving DecidableEq, Repr

/-- The keywords given twice: those of the call and those of the document. -/
def clash (given : List String) (kwargs : Map Json) : Option String := given.find? fun k => (kwargs.get k).isSome

/-- `pandas.rs:88-126` and `pandas_load.py`: which function is called with the keywords. The column of times is passed to
`load_pandas` and from there to the function; files with comma separated values have their dates parsed. -/
def Pandas.call (p : Pandas) : Except CallErr Reader :=
  match clash ["path", "index_col"] p.kwargs with
  | some k => .error (.duplicate k)
  | none =>
    match (extension p.source.url).map String.toLower with
    | some "csv" =>
      match clash ["parse_dates"] p.kwargs with
      | some k => .error (.duplicate k)
      | none => .ok .csv
    | some "xlsx" => .ok .excel
    | some "h5" => .ok .hdf
    | _ => .error .unsupported

end Verif.Files
