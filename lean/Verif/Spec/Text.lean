import Verif.Model.VersionFile
/-!
# Lines and words of a text
-/
namespace OM.Spec

/-- `line` is one of the lines of the text: a stretch without newline between two newlines or the ends of the text. -/
def IsLine (text line : List Char) : Prop :=
  ∃ a b, text = a ++ line ++ b ∧ '\n' ∉ line ∧ (a = [] ∨ a.getLast? = some '\n') ∧ (b = [] ∨ b.head? = some '\n')

/-- `ws` are the words of a line: they are separated by blanks and contain none. -/
inductive HasWords : List Char → List (List Char) → Prop where
  | nil (l : List Char) (hl : ∀ c ∈ l, pySpace c = true) : HasWords l []
  | cons (a w rest : List Char) (ws : List (List Char)) (ha : ∀ c ∈ a, pySpace c = true) (hw : w ≠ []) (hn : ∀ c ∈ w, pySpace c = false)
      (hr : ∀ c, rest.head? = some c → pySpace c = true) (h : HasWords rest ws) : HasWords (a ++ w ++ rest) (w :: ws)

/-- A name that is one word. -/
def OneWord (w : List Char) : Prop := w ≠ [] ∧ ∀ c ∈ w, pySpace c = false

/-- The text ends at the end of a line. -/
def EndsLine (text : List Char) : Prop := text = [] ∨ text.getLast? = some '\n'

/-- `.gitattributes` gives the file the attribute `export-subst`: a line with its name as pattern and the attribute behind it. Patterns that match
several names and later lines that take the attribute away are left out. -/
def Marked (src attributes : List Char) : Prop :=
  ∃ line ws, IsLine attributes line ∧ HasWords line (src :: ws) ∧ "export-subst".toList ∈ ws

/-- `MANIFEST.in` includes the file by its name. -/
def Included (name manifest : List Char) : Prop :=
  ∃ line ws, IsLine manifest line ∧ HasWords line ("include".toList :: ws) ∧ name ∈ ws

end OM.Spec
