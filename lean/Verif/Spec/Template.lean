import Verif.Spec.Text
/-!
# Specification of the template language of conv_template.py

A template is text interrupted by repeat blocks.  Text is a sequence of literal pieces and
references `@name@`.  `render` writes a template as a source file, `expand` says what it means.
-/
namespace Ufunclab.Template
open PyStr

abbrev Str := List Char

inductive Seg where
  | lit (s : Str)
  | ref (name : Str)

/-- One entry of a value list: a value, `v*n`, or `(v1,v2,...)*n`; blanks around values are
given as numbers. -/
inductive Item where
  | plain (v : Str)
  | rep (v : Str) (n : Nat)
  | group (vs : List (Nat × Str × Nat)) (n : Nat)

/-- A line `* #name = item, item, ...#` of a block header, with the numbers of blanks before
the star, before `#` and before `=`. -/
structure Var where
  indent : Nat
  gap1 : Nat
  name : Str
  gap2 : Nat
  items : List (Nat × Item × Nat)

/-- A template: text, or text, a repeat block, and the rest. -/
inductive Tmpl where
  | text (t : List Seg)
  | loop (pre : List Seg) (vars : List Var) (indent : Nat) (body rest : Tmpl)

def blanks (n : Nat) : Str := List.replicate n ' '

def Seg.render : Seg → Str
  | .lit s => s
  | .ref name => ['@'] ++ name ++ ['@']
def renderText (t : List Seg) : Str := (t.map Seg.render).flatten

def padded (p : Nat × Str × Nat) : Str := blanks p.1 ++ p.2.1 ++ blanks p.2.2

def Item.render : Item → Str
  | .plain v => v
  | .rep v n => v ++ ['*'] ++ Nat.toDigits 10 n
  | .group vs n => ['('] ++ join [','] (vs.map padded) ++ [')', '*'] ++ Nat.toDigits 10 n
/-- The values an entry stands for. -/
def Item.values : Item → List Str
  | .plain v => [v]
  | .rep v n => List.replicate n v
  | .group vs n => (List.replicate n (vs.map (·.2.1))).flatten

def renderItems (items : List (Nat × Item × Nat)) : Str :=
  join [','] (items.map fun i => blanks i.1 ++ i.2.1.render ++ blanks i.2.2)
def Var.values (v : Var) : List Str := (v.items.map fun i => i.2.1.values).flatten

def Var.render (v : Var) : Str :=
  blanks v.indent ++ ['*'] ++ blanks v.gap1 ++ ['#'] ++ v.name ++ blanks v.gap2 ++ ['='] ++ renderItems v.items ++ "#\n".toList

def level (l : Nat) : Str := if l = 0 then [] else Nat.toDigits 10 l

def renderHeader (l : Nat) (vars : List Var) (indent : Nat) : Str :=
  "/**begin repeat".toList ++ level l ++ ['\n'] ++ (vars.map Var.render).flatten ++ blanks indent ++ "*/\n".toList

/-- The source text of a template whose blocks have nesting level `l`. -/
def Tmpl.render (l : Nat) : Tmpl → Str
  | .text t => renderText t
  | .loop pre vars indent body rest =>
    renderText pre ++ renderHeader l vars indent ++ body.render (l + 1) ++
      ("/**end repeat".toList ++ level l ++ "**/\n".toList) ++ rest.render l

/-- Replace the references by their values; `none` when a name has no value. -/
def subst (env : List (Str × Str)) : List Seg → Option Str
  | [] => some []
  | .lit s :: t => (subst env t).map (s ++ ·)
  | .ref name :: t => (env.lookup name).bind fun v => (subst env t).map (v ++ ·)

/-- The assignments of a block: the `i`-th assigns its `i`-th value to every variable. -/
def rows (vars : List Var) : List (List (Str × Str)) :=
  (List.range ((vars.head?.map (fun v => v.values.length)).getD 0)).map fun i => vars.map fun v => (v.name, v.values.getD i [])

def concatAll : List (Option Str) → Option Str
  | [] => some []
  | x :: xs => x.bind fun a => (concatAll xs).map (a ++ ·)

def directive (line : Nat) : Str := "#line ".toList ++ Nat.toDigits 10 line ++ ['\n']

/-- The expansion of a template whose first character is in line `line`: the body of a block is
expanded once per assignment, in order, each copy preceded by a directive with the line number
of the body and followed by a newline.  Names given by enclosing blocks come first. -/
def Tmpl.expand (l : Nat) (env : List (Str × Str)) (line : Nat) : Tmpl → Option Str
  | .text t => subst env t
  | .loop pre vars indent body rest =>
    let bodyLine := line + (renderText pre ++ renderHeader l vars indent).count '\n'
    let restLine := bodyLine + (body.render (l + 1)).count '\n' + 1
    (subst env pre).bind fun p =>
    (concatAll ((rows vars).map fun row => (body.expand (l + 1) (env ++ row) bodyLine).map fun s => directive bodyLine ++ s ++ ['\n'])).bind fun b =>
    (rest.expand l env restLine).map fun r => p ++ b ++ r

/-! ### Well-formed templates -/

def space (c : Char) : Prop := c ∈ [' ', '\t', '\n', '\r', '\x0b', '\x0c']
def word (c : Char) : Prop := c.isAlphanum ∨ c = '_'

/-- A value: none of the characters with a meaning in value lists, no newline, and no blanks at
the ends. -/
def ValueOk (v : Str) : Prop :=
  (∀ c ∈ v, c ≠ ',' ∧ c ≠ '*' ∧ c ≠ '(' ∧ c ≠ ')' ∧ c ≠ '#' ∧ c ≠ '/' ∧ c ≠ '\n') ∧
  (∀ c, v.head? = some c → ¬ space c) ∧ (∀ c, v.getLast? = some c → ¬ space c)

def Item.Ok : Item → Prop
  | .plain v => ValueOk v
  | .rep v n => ValueOk v ∧ v ≠ [] ∧ 0 < n
  | .group vs n => vs ≠ [] ∧ (∀ p ∈ vs, ValueOk p.2.1) ∧ 0 < n

def NameOk (s : Str) : Prop := s ≠ [] ∧ ∀ c ∈ s, word c

def Var.Ok (v : Var) : Prop := NameOk v.name ∧ v.items ≠ [] ∧ ∀ i ∈ v.items, i.2.1.Ok

/-- Text: no `@` outside references, and neither kind of marker. -/
def TextOk (t : List Seg) : Prop :=
  (∀ s, Seg.lit s ∈ t → '@' ∉ s) ∧ (∀ n, Seg.ref n ∈ t → NameOk n) ∧
  ¬ "/**begin repeat".toList <:+: renderText t ∧ ¬ "/**end repeat".toList <:+: renderText t

/-- Block header: at least one variable, different names, equally many values for each. -/
def VarsOk (vars : List Var) : Prop :=
  vars ≠ [] ∧ (∀ v ∈ vars, v.Ok) ∧ (vars.map Var.name).Nodup ∧ ∀ v ∈ vars, ∀ w ∈ vars, v.values.length = w.values.length

def Tmpl.Ok : Tmpl → Prop
  | .text t => TextOk t
  | .loop pre vars _ body rest => TextOk pre ∧ VarsOk vars ∧ body.Ok ∧ rest.Ok

end Ufunclab.Template
