import Verif.Model.Stdio
/-!
# Vocabulary for C57
-/
namespace Verif

/-- The UTF-8 bytes of a text. -/
def utf8 (t : List Char) : Bytes := t.flatMap String.utf8EncodeChar

/-- The bytes of these lines, each followed by a newline. -/
def linesBytes (ls : List (List Char)) : Bytes := ls.flatMap fun l => utf8 (l ++ ['\n'])

/-- The bytes written in a history. -/
def pipedOf (es : List PipeEv) : Bytes := es.flatMap fun e => match e with | .wrote b => b | _ => []

/-- The child writes the stream `S`, in any pieces, and closes the pipe (if at all) when it has written it all. -/
def Writes (S : Bytes) (es : List PipeEv) : Prop := pipedOf es <+: S ∧ ∀ a b, es = a ++ .closed :: b → pipedOf a = S

end Verif
