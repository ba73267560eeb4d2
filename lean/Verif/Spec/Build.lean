/-!
# What a build has to do

A build directory gives each file name its text, if the file exists.  A target of the build runs a
script that writes some files.
-/
namespace Ufunclab.Build

/-- The build directory `ufunclab` of the build tree. -/
abbrev Dir (α : Type) := String → Option α

variable {σ α : Type}

def Dir.put (d : Dir α) (f : String) (t : α) : Dir α := fun g => if g = f then some t else d g

/-- What a generated text depends on: two states of the source tree that agree on the files in `reads` give the same texts. -/
def DependsOn (gen : (String → σ) → String → α) (reads : List String) : Prop :=
  ∀ s s', (∀ p ∈ reads, s p = s' p) → gen s = gen s'

/-- The files hold the texts for the sources `s`. -/
def UpToDate (gen : (String → σ) → String → α) (s : String → σ) (files : List String) (d : Dir α) : Prop :=
  ∀ f ∈ files, d f = some (gen s f)

/-- The characters of a Python string literal after its opening `"`, up to the closing `"`, which ends the line.  (No escapes: a literal with a backslash or a
newline is not read.) -/
def readLiteral : List Char → Option (List Char)
  | [] => none
  | '"' :: rest => if rest = ['\n'] then some [] else none
  | '\\' :: _ => none
  | '\n' :: _ => none
  | c :: rest => (readLiteral rest).map (c :: ·)

/-- The value of the Python assignment `__version__ = "..."`. -/
def readVersion (line : List Char) : Option (List Char) :=
  let pre := "__version__ = \"".toList
  if line.take pre.length = pre then readLiteral (line.drop pre.length) else none

/-- The characters of the version identifiers of PEP 440. -/
def pep440 (c : Char) : Bool := c.isAlphanum || c ∈ ['.', '!', '+', '-', '_']

end Ufunclab.Build
