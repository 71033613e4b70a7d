import Mathlib.Data.Nat.Notation

/-!
# Reading a table of comma-separated values

Independent of the model of the writer. There are no quotes.
-/

namespace Verif.Spec

/-- The parts of a text between the occurrences of a character. -/
def splitAtChar (c : Char) : List Char → List (List Char)
  | [] => [[]]
  | x :: l => if x = c then [] :: splitAtChar c l else
    match splitAtChar c l with
    | [] => [[x]]
    | h :: t => (x :: h) :: t

/-- The lines of a text, each of which ends with a line feed, split at the commas. -/
def readTable (s : List Char) : List (List (List Char)) := (splitAtChar '\n' s).dropLast.map (splitAtChar ',')

/-- The words of a line: its parts between blanks. -/
def wordsOf (l : List Char) : List (List Char) := (splitAtChar ' ' l).filter fun w => !w.isEmpty

/-- The words of the lines of a text, each of which ends with a line feed. -/
def readWords (s : List Char) : List (List (List Char)) := (splitAtChar '\n' s).dropLast.map wordsOf

end Verif.Spec
