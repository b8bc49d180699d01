import Verif.Model.Cli

/-! # The command that converts files: what is claimed -/

namespace Verif.Cli

/-- A text becomes another one: it is read, converted and printed; with `stop`, if the conversion has no errors. -/
def Becomes (T : Tool) (stop : Bool) (text text' : String) : Prop :=
  ∃ a, T.parse text = some a ∧ (stop = true → (T.convert a).2 = []) ∧ T.print (T.convert a).1 = some text'

/-- The name of a file that is converted: something and `.json`. -/
def Json (n : String) : Prop := ∃ c cs, n.toList = c :: cs ++ ['.', 'j', 's', 'o', 'n']

/-- A file in a directory that is converted. -/
def Input (d : Disk) (i : Path) (n text : String) : Prop := Json n ∧ d (i ++ [n]) = some (.file text)

/-- The entries of a directory, in any order. -/
structure Lists (d : Disk) (i : Path) (entries : List String) : Prop where
  once : entries.Nodup
  all : ∀ n x, d (i ++ [n]) = some x → n ∈ entries

/-- A directory is converted: each of its files is, under its name, and nothing else is changed. -/
structure Converted (T : Tool) (stop : Bool) (i o : Path) (d d' : Disk) : Prop where
  files : ∀ n text, Input d i n text → d (o ++ [n]) ≠ some .dir ∧ ∃ text', Becomes T stop text text' ∧ d' (o ++ [n]) = some (.file text')
  rest : ∀ p, (∀ n text, Input d i n text → p ≠ o ++ [n]) → d' p = d p

/-- What a path may hold in the end: what it did, or the conversion of an input. -/
def Intact (T : Tool) (stop : Bool) (i o : Path) (d : Disk) (p : Path) (x : Option Item) : Prop :=
  x = d p ∨ ∃ n text text', Input d i n text ∧ p = o ++ [n] ∧ Becomes T stop text text' ∧ x = some (.file text')

end Verif.Cli
