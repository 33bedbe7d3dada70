import Verif.Model.Util
/-!
# Process search on Windows and elsewhere

/repo/teleprox/util.py:41-78 on platforms other than Linux. WMI is modelled by the table of its processes and by how it reads a query.
-/
namespace Verif

/-- What `sys.platform` says. /repo/teleprox/util.py:46, 56. -/
inductive Platform where
  | linux | win32 | other
  deriving DecidableEq, Repr

/-- How WMI compares characters: `same` for a character of a pattern with one of the text (WMI ignores case), `inSet` for a set `[...]` of a pattern. Left open.
Used by the query at /repo/teleprox/util.py:59. -/
structure WqlLib where
  same : Char → Char → Bool
  inSet : List Char → Char → Bool

/-- A part of a pattern of `like`. /repo/teleprox/util.py:59. -/
inductive LikeTok where
  | any
  | one
  | set (cs : List Char)
  | lit (c : Char)
  deriving DecidableEq, Repr

/-- The text of a WQL string, from behind its opening quote up to its closing one, and what follows it. A backslash makes a quote or a backslash ordinary. Simplification: `none` for
other uses of the backslash, and if the string does not end. /repo/teleprox/util.py:59. -/
def wqlText : List Char → Option (List Char × List Char)
  | [] => none
  | '"' :: r => some ([], r)
  | '\\' :: '"' :: r => (wqlText r).map fun p => ('"' :: p.1, p.2)
  | '\\' :: '\\' :: r => (wqlText r).map fun p => ('\\' :: p.1, p.2)
  | '\\' :: _ => none
  | c :: r => (wqlText r).map fun p => (c :: p.1, p.2)

/-- The parts of a pattern; `none` for a `[` that is not closed. The second argument holds the characters of an open set. /repo/teleprox/util.py:59. -/
def likeToks : List Char → Option (List Char) → Option (List LikeTok)
  | [], none => some []
  | [], some _ => none
  | c :: r, some cs => if c = ']' then (likeToks r none).map (.set cs :: ·) else likeToks r (some (cs ++ [c]))
  | c :: r, none =>
    if c = '%' then (likeToks r none).map (.any :: ·)
    else if c = '_' then (likeToks r none).map (.one :: ·)
    else if c = '[' then likeToks r (some [])
    else (likeToks r none).map (.lit c :: ·)

/-- Does the text match the pattern? `like`, /repo/teleprox/util.py:59. -/
def likeMatch (W : WqlLib) : List LikeTok → List Char → Bool
  | [], [] => true
  | [], _ :: _ => false
  | .any :: p, [] => likeMatch W p []
  | .any :: p, c :: s => likeMatch W p (c :: s) || likeMatch W (.any :: p) s
  | .one :: p, _ :: s => likeMatch W p s
  | .set cs :: p, c :: s => W.inSet cs c && likeMatch W p s
  | .lit a :: p, c :: s => W.same a c && likeMatch W p s
  | _ :: _, [] => false
termination_by p s => p.length + s.length

/-- A process as WMI lists it: its id, and its command line if it can be read. /repo/teleprox/util.py:59-60. -/
structure WinProc where
  pid : Nat
  cmd : Option (List Char)
  deriving DecidableEq, Repr

/-- The processes with a command line that matches. A missing one (null) matches nothing. /repo/teleprox/util.py:59-60. -/
def winMatching (W : WqlLib) (toks : List LikeTok) (table : List WinProc) : List (Int × List Char) :=
  table.filterMap fun p =>
    match p.cmd with
    | some c => if likeMatch W toks c then some ((p.pid : Int), c) else none
    | none => none

/-- `find_procs(search)` on Windows: the text between the quotes is `%`, the search text as it is, `%`. /repo/teleprox/util.py:56-60. Simplification: `none` where the query is not
one condition on the command line: the search text ends the string, has another backslash, or opens a set without closing it. -/
def findWin (W : WqlLib) (table : List WinProc) (search : List Char) : Option (List (Int × List Char)) :=
  match wqlText ('%' :: search ++ ['%', '"']) with
  | some (t, []) => (likeToks t none).map fun toks => winMatching W toks table
  | _ => none

/-- `find_procs(search)` with the platform as an argument; /repo/teleprox/util.py:41-62. `none`: see `findWin`. -/
def findOn (W : WqlLib) (ps : Bytes) (table : List WinProc) (pf : Platform) (search : List Char) : Option (Except Exc (List (Int × List Char))) :=
  match pf with
  | .linux => some (findProcs ps search)
  | .win32 => (findWin W table search).map .ok
  | .other => some (.error (.other "NotImplementedError"))

/-- `kill_procs(search)` on Windows; /repo/teleprox/util.py:64-78. `t₁` and `t₂` are the processes before and after the pause. The parameter `_search` is not used. -/
def killWin (W : WqlLib) (namePrefix : List Char) (t₁ t₂ : List WinProc) (kill : Int → Except Exc Unit) (_search : List Char) :
    Option (List Int × Except Exc (List (Int × List Char))) :=
  match findWin W t₁ namePrefix with
  | none => none
  | some [] => some ([], .ok [])
  | some _ =>
    match findWin W t₂ namePrefix with
    | none => none
    | some [] => some ([], .ok [])
    | some procs =>
      match killAll kill procs with
      | (k, some e) => some (k, .error e)
      | (k, none) => some (k, .ok procs)

end Verif
