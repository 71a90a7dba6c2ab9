import Verif.Model.SqlConvert
/-!
# Specification of C115: the statements of MySQL and of SQLite
-/
namespace Verif.SqlConvert.Spec

/-- A line of the statement: the text of a column (or `PRIMARY KEY (...)`), and the comment that may follow it. -/
structure Line where
  text : List Char
  comment : Option (List Char)

/-- The line in the answer of MySQL. -/
def mysqlLine (l : Line) : List Char :=
  [' ', ' '] ++ l.text ++ (match l.comment with
    | none => []
    | some t => [' ', 'C', 'O', 'M', 'M', 'E', 'N', 'T', ' ', '\''] ++ t ++ ['\''])

/-- The line without the comment. -/
def plainLine (l : Line) : List Char := [' ', ' '] ++ l.text

/-- The line of an index. -/
def keyLine (k : List Char) : List Char := [' ', ' ', 'K', 'E', 'Y', ' '] ++ k

/-- Lines separated by commas. -/
def joined : List (List Char) → List Char
  | [] => []
  | [l] => l
  | l :: m :: ls => l ++ [',', '\n'] ++ joined (m :: ls)

/-- The answer of MySQL to `show create table`: `head` is CREATE TABLE with the name and the bracket, `options` what follows ENGINE. -/
def mysql (head : List Char) (lines : List Line) (keys : List (List Char)) (options : List Char) : List Char :=
  head ++ ['\n'] ++ joined (lines.map mysqlLine ++ keys.map keyLine) ++ ['\n', ')', ' ', 'E', 'N', 'G', 'I', 'N', 'E'] ++ options

/-- The text of a line: in one line, not starting with a blank or with KEY, and with no comment in it. -/
def GoodText (t : List Char) : Prop :=
  '\n' ∉ t ∧ (∃ c cs, t = c :: cs ∧ isSpace c = false) ∧ ¬ ['K', 'E', 'Y'] <+: t ∧ ¬ [' ', 'C', 'O', 'M', 'M', 'E', 'N', 'T'] <:+: [' ', ' '] ++ t

/-- The whole statement: no ENGINE but that of MySQL. -/
structure GoodTable (head : List Char) (lines : List Line) (keys : List (List Char)) (options : List Char) : Prop where
  some_line : lines ≠ []
  head_line : '\n' ∉ head ∧ ¬ [' ', 'C', 'O', 'M', 'M', 'E', 'N', 'T'] <:+: head
  good_lines : ∀ l ∈ lines, GoodText l.text ∧ ∀ t, l.comment = some t → '\n' ∉ t
  good_keys : ∀ k ∈ keys, '\n' ∉ k ∧ ¬ [' ', 'C', 'O', 'M', 'M', 'E', 'N', 'T'] <:+: keyLine k
  one_engine : ¬ ['E', 'N', 'G', 'I', 'N', 'E'] <:+: head ++ ['\n'] ++ joined (lines.map plainLine ++ keys.map keyLine)
  options_line : '\n' ∉ options

end Verif.SqlConvert.Spec
