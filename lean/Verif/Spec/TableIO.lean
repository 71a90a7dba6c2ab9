import Verif.Model.TableIO
/-!
# Vocabulary for the tables (C39, C40)
-/
namespace Verif.TableIO

/-- A dataframe with different column names, one cell per column in each row, text exactly in the object
columns. -/
structure GoodDF (df : DF) : Prop where
  names : (df.cols.map Prod.fst).Nodup
  lengths : ∀ row ∈ df.rows, row.length = df.cols.length
  not_str : ∀ c ∈ df.cols, ∀ n, c.2 ≠ .str n
  typed : ∀ row ∈ df.rows, ∀ (i : Nat) (c : String × DType) (x : Cell), df.cols[i]? = some c → row[i]? = some x →
    (c.2 = .obj ↔ ∃ s, x = .text s)

/-- A dtype that can go into a column of a table: text into text, and numbers into numbers of the same or a
wider kind (truth values, integers without sign, integers, reals) or into text. -/
def Fits : DType → DType → Prop
  | .obj, .str _ => True
  | .obj, .obj => True
  | .obj, _ => False
  | .str _, .str _ => True
  | .str _, .obj => True
  | .str _, _ => False
  | .bool, _ => True
  | .uint, .bool => False
  | .uint, _ => True
  | .int, .bool => False
  | .int, .uint => False
  | .int, _ => True
  | .float, .bool => False
  | .float, .uint => False
  | .float, .int => False
  | .float, _ => True

/-- The dataframe has the columns of the table, whatever their order. -/
def SameNames (a b : List (String × DType)) : Prop := ∀ n, n ∈ a.map Prod.fst ↔ n ∈ b.map Prod.fst

/-- What the table accepts. -/
def Accepted (tcols : List (String × DType)) (df : DF) : Prop :=
  SameNames df.cols tcols ∧ ∀ c ∈ df.cols, ∀ t, (c.1, t) ∈ tcols → Fits c.2 t

/-- A value as stored: text is cut to the width of the column. -/
def Stored : DType → Cell → Cell → Prop
  | .str n, .text s, y => y = .text (String.ofList (s.toList.take n))
  | .str _, .num _, y => ∃ s, y = .text s
  | _, x, y => y = x

/-- `new` are the rows of `df` in order, with the columns of the table. -/
def RowsOf (df : DF) (tcols : List (String × DType)) (new : List (List Cell)) : Prop :=
  List.Forall₂ (fun row nrow => nrow.length = tcols.length ∧ ∀ name t, (name, t) ∈ tcols →
    ∃ x y, cellOf df.cols row name = some x ∧ cellOf tcols nrow name = some y ∧ Stored t x y) df.rows new

/-- Any number of writes to the same node. -/
def writeAll (f : File) (k : String × String) (strLen : Nat) (dfs : List DF) : File :=
  dfs.foldl (fun f df => (dfWriter f df k strLen none).1) f

end Verif.TableIO
