import Verif.Model.Argv
/-
How a user writes a command line, and what they mean by it.
-/
namespace Swoll.Spec.Argv
open Swoll.JobArgs (Str)
open Swoll.Argv

/-- The ways to write things. -/
inductive Item where
  /-- a word that is no flag -/
  | word (s : Str)
  /-- `--flag value` -/
  | long (f : Flag) (v : Str)
  /-- `--flag=value` -/
  | longEq (f : Flag) (v : Str)
  /-- `-f value` -/
  | short (f : Flag) (c : Char) (v : Str)
  /-- `-fvalue` -/
  | attached (f : Flag) (c : Char) (v : Str)
  /-- `--flag`, for a flag that is on or off -/
  | on (f : Flag)
  /-- `-abc`, for such flags -/
  | letters (fs : List (Flag × Char))

/-- What is written. -/
def Item.text : Item → List Str
  | .word s => [s]
  | .long f v => ["--".toList ++ f.name, v]
  | .longEq f v => ["--".toList ++ f.name ++ '=' :: v]
  | .short _ c v => [['-', c], v]
  | .attached _ c v => ['-' :: c :: v]
  | .on f => ["--".toList ++ f.name]
  | .letters fs => ['-' :: fs.map (·.2)]

/-- The flags that get a value by it. -/
def Item.given : Item → List (Flag × Str)
  | .word _ => []
  | .long f v | .longEq f v | .short f _ v | .attached f _ v => [(f, v)]
  | .on f => [(f, "true".toList)]
  | .letters fs => fs.map fun p => (p.1, "true".toList)

/-- The other words. -/
def Item.words : Item → List Str
  | .word s => [s]
  | _ => []

/-- A value of a flag's type. -/
def Fits (f : Flag) (v : Str) : Prop := match f.kind with
  | .text => True
  | .bool => v ∈ ["1", "t", "T", "true", "TRUE", "True", "0", "f", "F", "false", "FALSE", "False"].map String.toList
  | .slice => ∃ l, JobArgs.readAsCSV v = some l

/-- It can be written that way. -/
def Item.Good (fl : List Flag) : Item → Prop
  | .word s => s.head? ≠ some '-' ∨ s = ['-']
  | .long f v => f ∈ fl ∧ f.kind ≠ .bool ∧ Fits f v
  | .longEq f v => f ∈ fl ∧ Fits f v
  | .short f c v => f ∈ fl ∧ f.kind ≠ .bool ∧ f.short = some c ∧ Fits f v
  | .attached f c v => f ∈ fl ∧ f.kind ≠ .bool ∧ f.short = some c ∧ v ≠ [] ∧ v.head? ≠ some '=' ∧ Fits f v
  | .on f => f ∈ fl ∧ f.kind = .bool
  | .letters fs => fs ≠ [] ∧ ∀ p ∈ fs, p.1 ∈ fl ∧ p.1.kind = .bool ∧ p.1.short = some p.2

/-- The words that name a command. -/
def path : Cmd → List Str
  | .root => []
  | .help => ["help".toList]
  | .client => ["client".toList]
  | .query => ["client".toList, "query".toList]
  | .completed => ["client".toList, "query".toList, "completed".toList]
  | .running => ["client".toList, "query".toList, "running".toList]
  | .delete => ["client".toList, "delete".toList]
  | .watch => ["client".toList, "watch".toList]
  | .create => ["client".toList, "create".toList]
  | .controller => ["controller".toList]
  | .selftest => ["selftest".toList]
  | .server => ["server".toList]
  | .top => ["top".toList]
  | .trace => ["trace".toList]

/-- The commands that do something. -/
def Works (c : Cmd) : Prop := c ∉ [Cmd.root, .client, .query]

end Swoll.Spec.Argv
