import Verif.Model.Process
/-!
# The command line of the bootstrap script

Specification vocabulary for C122: the ways to write options, and what a command line says about each of them.
-/
namespace Verif

/-- The text of an option. -/
def BootOpt.text : BootOpt → List Char
  | .listenAddr => "--listen_addr".toList
  | .daemon => "--daemon".toList
  | .qt => "--qt".toList
  | .verbose => "--verbose".toList
  | .logaddr => "--logaddr".toList
  | .loglevel => "--loglevel".toList
  | .bootstrapAddr => "--bootstrap_addr".toList
  | .childNamePrefix => "--child_name_prefix".toList

/-- All words that are options, with those for help. -/
def optWords : List (List Char) :=
  ["-h".toList, "--help".toList, "--listen_addr".toList, "--daemon".toList, "--qt".toList, "--verbose".toList, "--logaddr".toList,
   "--loglevel".toList, "--bootstrap_addr".toList, "--child_name_prefix".toList]

/-- `t` is a way to write the option: its text, or any beginning of it that no other option has. -/
def Means (t : List Char) (o : BootOpt) : Prop := ∀ s ∈ optWords, t <+: s ↔ s = o.text

instance (t o) : Decidable (Means t o) := inferInstanceAs (Decidable (∀ s ∈ optWords, t <+: s ↔ s = o.text))

/-- A negative number in the sense of argparse: digits, or digits, a point and digits, maybe with a newline behind. -/
def Negative (a : List Char) : Prop :=
  ∃ i f e, (e = [] ∨ e = ['\n']) ∧ (∀ c ∈ i ++ f, isUniDigit c = true) ∧
    ((a = '-' :: i ++ e ∧ i ≠ []) ∨ (a = '-' :: i ++ '.' :: f ++ e ∧ f ≠ []))

/-- A word that can be a name, or the value of the option before it: it does not begin with a dash, or is nothing but a
dash, or is a negative number or has a blank in it, unless it can be read as an option. -/
def ArgWord (a : List Char) : Prop :=
  a.head? ≠ some '-' ∨ a = ['-'] ∨
  ((Negative a ∨ ' ' ∈ a) ∧ ¬ ['-', 'h'] <+: a ∧ ¬ (['-', '-'] <+: a ∧ ∃ s ∈ optWords, a.takeWhile (· ≠ '=') <+: s))

/-- One option on the command line, written `t`: alone, with `=` and a value, or with the value as the next word. -/
inductive CmdArg where
  | bare (t : List Char) (o : BootOpt)
  | eq (t : List Char) (o : BootOpt) (v : List Char)
  | sep (t : List Char) (o : BootOpt) (v : List Char)
  deriving DecidableEq, Repr

/-- Its words. -/
def CmdArg.words : CmdArg → List (List Char)
  | .bare t _ => [t]
  | .eq t _ v => [t ++ '=' :: v]
  | .sep t _ v => [t, v]

/-- The option. -/
def CmdArg.opt : CmdArg → BootOpt
  | .bare _ o => o
  | .eq _ o _ => o
  | .sep _ o _ => o

/-- What it says. -/
def CmdArg.says : CmdArg → OptVal
  | .bare _ _ => .const
  | .eq _ _ v => .given v
  | .sep _ _ v => .given v

/-- The option is written in a way that means it, and a value of its own word can be one. -/
def CmdArg.Ok : CmdArg → Prop
  | .bare t o => Means t o
  | .eq t o _ => Means t o
  | .sep t o v => Means t o ∧ ArgWord v

/-- An option without a value. -/
def CmdArg.IsBare : CmdArg → Prop
  | .bare _ _ => True
  | _ => False

/-- What the options say about `o`: the last one for `o` counts. -/
def said (as : List CmdArg) (o : BootOpt) : OptVal :=
  (((as.filter fun a => decide (a.opt = o)).getLast?).map CmdArg.says).getD .default

/-- A command line: options without a name, maybe with `--` behind them; options, a name and options, where `--` may follow the
name if it is the last word; options, `--` and any name. -/
inductive CmdLine where
  | noName (as : List CmdArg) (dashes : Bool)
  | named (as : List CmdArg) (n : List Char) (bs : List CmdArg) (dashes : Bool)
  | behind (as : List CmdArg) (n : List Char)

/-- Its words. -/
def CmdLine.words : CmdLine → List (List Char)
  | .noName as d => as.flatMap CmdArg.words ++ if d then [['-', '-']] else []
  | .named as n bs d => as.flatMap CmdArg.words ++ n :: (bs.flatMap CmdArg.words ++ if d then [['-', '-']] else [])
  | .behind as n => as.flatMap CmdArg.words ++ [['-', '-'], n]

/-- The name. -/
def CmdLine.name : CmdLine → Option (List Char)
  | .noName _ _ => none
  | .named _ n _ _ => some n
  | .behind _ n => some n

/-- The options. -/
def CmdLine.options : CmdLine → List CmdArg
  | .noName as _ => as
  | .named as _ bs _ => as ++ bs
  | .behind as _ => as

/-- The options are written correctly, and a name that is not behind `--` is a word that does not follow an option without a
value. -/
def CmdLine.Ok : CmdLine → Prop
  | .noName as _ => ∀ a ∈ as, a.Ok
  | .named as n bs d => (∀ a ∈ as, a.Ok) ∧ (∀ a ∈ bs, a.Ok) ∧ ArgWord n ∧ (∀ a ∈ as.getLast?, ¬ a.IsBare) ∧ (d = true → bs = [])
  | .behind as _ => ∀ a ∈ as, a.Ok

/-- An option that is switched on alone or by any text that is not empty. -/
def OptVal.On : OptVal → Prop
  | .default => False
  | .const => True
  | .given s => s ≠ []

end Verif
