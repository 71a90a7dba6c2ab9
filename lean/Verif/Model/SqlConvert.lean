import Verif.Base
/-!
# Model of the conversion of the statement that creates a table (`create_table_sqlite`, database/download.py:14-33)

The three substitutions of regular expressions, on the characters of the statement. Simplification: the blanks are the ASCII ones.
-/
namespace Verif.SqlConvert

/-- `\s`. -/
def isSpace (c : Char) : Bool := c == ' ' || c == '\t' || c == '\n' || c == '\r' || c == '\x0b' || c == '\x0c'

/-- What follows a fixed text. -/
def strip : List Char → List Char → Option (List Char)
  | [], s => some s
  | _ :: _, [] => none
  | p :: ps, c :: cs => if p = c then strip ps cs else none

/-- The characters of the line (`.` is not the newline). -/
def notNl (c : Char) : Bool := c != '\n'

/-- What follows the last time that a character is found: a greedy `.*` before it. -/
def afterLast (c : Char) : List Char → Option (List Char)
  | [] => none
  | x :: xs => match afterLast c xs with
    | some r => some r
    | none => if x = c then some xs else none

/-- A greedy `.*` and a quote. -/
def greedyQuote (q : List Char) : Option (List Char) :=
  match afterLast '\'' (q.takeWhile notNl) with
  | none => none
  | some x => some (x ++ q.dropWhile notNl)

/-- ` COMMENT\s+\'.*\'` at the start of the text: what follows (download.py:22). -/
def matchComment (s : List Char) : Option (List Char) :=
  match strip [' ', 'C', 'O', 'M', 'M', 'E', 'N', 'T'] s with
  | none => none
  | some r => if (r.takeWhile isSpace).isEmpty then none else match r.dropWhile isSpace with
    | [] => none
    | c :: q => if c = '\'' then greedyQuote q else none

/-- `\s*ENGINE.*` (download.py:26). -/
def matchEngine (s : List Char) : Option (List Char) :=
  match strip ['E', 'N', 'G', 'I', 'N', 'E'] (s.dropWhile isSpace) with
  | none => none
  | some r => some (r.dropWhile notNl)

/-- `.*[\n,]` after `KEY`: the rest of the line with its end, or up to its last comma if the text ends there. -/
def keyEnd (q : List Char) : Option (List Char) :=
  match q.dropWhile notNl with
  | _ :: rest => some rest
  | [] => afterLast ',' q

/-- `,\s*\n\s*KEY.*[\n,]` (download.py:31). -/
def matchKey (s : List Char) : Option (List Char) :=
  match s with
  | [] => none
  | c :: r => if c = ',' then (if (r.takeWhile isSpace).contains '\n' then match strip ['K', 'E', 'Y'] (r.dropWhile isSpace) with
      | none => none
      | some q => keyEnd q
    else none) else none

/-- `re.sub(pattern, "", s)`: the matches are removed from left to right. -/
def subFuel (m : List Char → Option (List Char)) : Nat → List Char → List Char
  | 0, s => s
  | _ + 1, [] => []
  | n + 1, c :: cs => match m (c :: cs) with
    | some r => subFuel m n r
    | none => c :: subFuel m n cs

/-- With as much fuel as characters. -/
def sub (m : List Char → Option (List Char)) (s : List Char) : List Char := subFuel m s.length s

/-- The statement for SQLite (download.py:22-31). -/
def convert (sql : List Char) : List Char := sub matchKey (sub matchEngine (sub matchComment sql))

end Verif.SqlConvert
