import Verif.Model.Process
/-!
# `start_process(shell=…)`

/repo/teleprox/process.py:180-188, 206: how the command is started through the shell.
-/
namespace Verif

/-- `' '.join(cmd)`; /repo/teleprox/process.py:181. -/
def joinCmd : List (List Char) → List Char
  | [] => []
  | [w] => w
  | w :: r => w ++ ' ' :: joinCmd r

/-- The argument list with which `Popen(cmd, shell=shell)` starts a program on a posix system (Python's standard library): a text is one argument; if `shell` is true, `/bin/sh -c` and then
the arguments. `cmd` is a text if `shell is True`. /repo/teleprox/process.py:180-181, 187, 206. -/
def popenArgv (shell : PArg) (cmd : List (List Char)) : List (List Char) :=
  let args := if shell = .bool true then [joinCmd cmd] else cmd
  if shell.truth then "/bin/sh".toList :: "-c".toList :: args else args

/-- Characters that have a meaning for the shell beyond separating words and `*`: a text with one of them is outside the model. (`=` only in the first word.) The shell of
/repo/teleprox/process.py:206; POSIX, Shell Command Language 2.2. -/
def shSpecial : List Char := ['|', '&', ';', '<', '>', '(', ')', '$', '`', '\\', '"', '\'', '\n', '#', '~', '{', '}', '!', '?', '[', ']', '%']

/-- The words of a text without special characters: separated by blanks. `cur` is the word begun. POSIX, Shell Command Language 2.3; for /repo/teleprox/process.py:206. -/
def shSplit : List Char → List Char → List (List Char)
  | [], cur => if cur.isEmpty then [] else [cur]
  | c :: t, cur =>
    if c = ' ' ∨ c = '\t' then (if cur.isEmpty then [] else [cur]) ++ shSplit t []
    else shSplit t (cur ++ [c])

/-- Pathname expansion of a word: a word with `*` becomes the names of the files it matches, if there are any. POSIX, Shell Command Language 2.6.6; for /repo/teleprox/process.py:206. -/
def shExpand (glob : List Char → List (List Char)) (w : List Char) : List (List Char) :=
  if '*' ∈ w ∧ glob w ≠ [] then glob w else [w]

/-- The program and arguments `sh -c text` runs; `none` is outside the model. The first word is assumed to be the name of a program (not a reserved word, function or builtin command).
POSIX, Shell Command Language 2.9.1; for /repo/teleprox/process.py:206. -/
def shRun (glob : List Char → List (List Char)) (text : List Char) : Option (List (List Char)) :=
  if text.any (shSpecial.contains ·) then none
  else
    match shSplit text [] with
    | [] => some []
    | w :: ws => if '=' ∈ w then none else some ((w :: ws).flatMap (shExpand glob))

/-- The program and arguments that finally run for the argument list of `Popen`: `sh -c text …` runs the text (what follows are its parameters). No other program is started with `-c` here.
/repo/teleprox/process.py:206. -/
def finalArgv (glob : List Char → List (List Char)) : List (List Char) → Option (List (List Char))
  | a :: b :: t :: r => if b = "-c".toList then shRun glob t else some (a :: b :: t :: r)
  | l => some l

/-- The arguments of the script, of a Python started as `python -u -m teleprox.bootstrap args`; `none`: the script does not run. /repo/teleprox/process.py:175. -/
def scriptArgs : List (List Char) → Option (List (List Char))
  | _ :: u :: m :: t :: args => if u = "-u".toList ∧ m = "-m".toList ∧ t = "teleprox.bootstrap".toList then some args else none
  | _ => none

end Verif
