import Verif.Model.Files

/-! # Files of data: what is claimed -/

namespace Verif.Files

/-- The value of a digit: `0` to `9` and `a` to `f`. -/
def value (c : Char) : Option Nat :=
  if '0'.toNat ≤ c.toNat ∧ c.toNat ≤ '9'.toNat then some (c.toNat - 48)
  else if 'a'.toNat ≤ c.toNat ∧ c.toNat ≤ 'f'.toNat then some (c.toNat - 87)
  else none

/-- Digits spell bytes: two for each. -/
inductive Spells : List Char → List UInt8 → Prop
  | nil : Spells [] []
  | cons {c d : Char} {cs : List Char} {b : UInt8} {bs : List UInt8} {hi lo : Nat} :
      value c = some hi → value d = some lo → b.toNat = 16 * hi + lo → Spells cs bs → Spells (c :: d :: cs) (b :: bs)

/-- A file's content is the one a checksum was made of, as far as the digest tells. -/
def Checksum.Fits (H : Digests) (bytes : List UInt8) : Checksum → Prop
  | .md5 h => Spells h.toList (H.md5 bytes)
  | .sha256 h => Spells h.toList (H.sha256 bytes)

/-- Where a file is: as written if that is an absolute path or there is no directory of data, otherwise in that directory. -/
inductive At : String → Option String → String → Prop
  | here (url) : At url none url
  | absolute (url dp) : url.toList.head? = some '/' → At url dp url
  | inside (url dir) : url.toList.head? ≠ some '/' → dir ≠ "" → dir.toList.getLast? ≠ some '/' → At url (some dir) (dir ++ "/" ++ url)
  | inside' (url dir) : url.toList.head? ≠ some '/' → dir.toList.getLast? = some '/' → At url (some dir) (dir ++ url)
  | inside0 (url) : url.toList.head? ≠ some '/' → At url (some "") url

/-- The column of times of a series: by its name or by its position. -/
inductive TimeColumn
  | named (name : String)
  | number (n : Int)
  deriving DecidableEq, Repr

/-- What an old model says: `index_col`, with the first column as default. -/
inductive Frame.Times (f : Frame) : TimeColumn → Prop
  | named {s} : ("index_col", Json.str s) ∈ f.kwargs → f.Times (.named s)
  | number {n} : ("index_col", Json.int n) ∈ f.kwargs → f.Times (.number n)
  | default : (∀ v, ("index_col", v) ∉ f.kwargs) → f.Times (.number 0)

/-- What the new one reads: the column named, with the first column as default (`pandas.rs:112-116`). -/
def Pandas.times (p : Pandas) : TimeColumn :=
  match p.timeCol with
  | some c => .named c
  | none => .number 0

/-- A map has one value for each key. -/
def Unique {α : Type} (m : Map α) : Prop := (m.map (·.1)).Nodup

end Verif.Files
