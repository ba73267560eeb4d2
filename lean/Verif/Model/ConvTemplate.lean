import Verif.Model.PyStr
import Verif.Spec.Text
/-!
# Model of tools/conv_template.py

Character-level model of the template expander.  Simplifications: `\w`, `\d` and `\s` are the
ASCII classes; `none` is ValueError (messages are not modelled); the list `excludes` that
`parse_loop_header` builds and discards (lines 196-205) is not built; `spanlist.sort()` (line
136) is left out because the spans are found in increasing order.
-/
namespace Ufunclab.ConvTemplate
open PyStr

abbrev Str := List Char
/-- A Python dict from names to strings; the first entry for a key counts. -/
abbrev Env := List (Str × Str)

/-- `\s` and the characters `str.strip()` removes. -/
def isSpace (c : Char) : Bool := c == ' ' || c == '\t' || c == '\n' || c == '\r' || c == '\x0b' || c == '\x0c'
/-- `\w`. -/
def isWord (c : Char) : Bool := c.isAlphanum || c == '_'

/-- `s.strip()`. -/
def strip (s : Str) : Str := ((s.dropWhile isSpace).reverse.dropWhile isSpace).reverse

/-- `s.find(sub, i)`. -/
def pyFind (s sub : Str) (i : Int) : Int :=
  let k : Nat := if i < 0 then ((s.length : Int) + i).toNat else i.toNat
  match find sub (s.drop k) with
  | none => -1
  | some j => (k : Int) + j

/-- A Python slice bound. -/
def clampIdx (n : Nat) (i : Int) : Nat := if i < 0 then ((n : Int) + i).toNat else min i.toNat n

/-- `s[a:b]`. -/
def pySlice (s : Str) (a b : Int) : Str := (s.take (clampIdx s.length b)).drop (clampIdx s.length a)

/-- `s.count("\n", a, b)`. -/
def pyCount (s : Str) (a b : Int) : Nat := (pySlice s a b).count '\n'

/-- The number in the loop markers: empty for level 0, else `"%d" % level`. -/
def levelStr (level : Nat) : Str := if level = 0 then [] else Nat.toDigits 10 level

/-- `loopbeg`, lines 114-119. -/
def loopBeg (level : Nat) : Str := "/**begin repeat".toList ++ levelStr level
/-- `loopend`, lines 114-119. -/
def loopEnd (level : Nat) : Str := "/**end repeat".toList ++ levelStr level ++ "**/".toList

/-- A span of `parse_structure`. -/
structure Span where
  start : Int
  textStart : Int
  fini1 : Int
  fini2 : Int
  line : Nat
  deriving DecidableEq, Repr

/-- The `while` loop of `parse_structure`, lines 124-135. -/
def structureLoop (astr beg fin : Str) : Nat → Int → Nat → List Span
  | 0, _, _ => []
  | fuel + 1, ind, line =>
    let start := pyFind astr beg ind
    if start = -1 then [] else
      let start2 := pyFind astr "\n".toList (pyFind astr "*/".toList start)
      let fini1 := pyFind astr fin start2
      let fini2 := pyFind astr "\n".toList fini1
      let line1 := line + pyCount astr ind (start2 + 1)
      ⟨start, start2 + 1, fini1, fini2 + 1, line1⟩ ::
        structureLoop astr beg fin fuel fini2 (line1 + pyCount astr (start2 + 1) fini2)

/-- `parse_structure`, lines 108-137.  The fuel is enough: `ind` grows with every span, or is at
the last character and the next search fails. -/
def parseStructure (astr : Str) (level : Nat) : List Span :=
  structureLoop astr (loopBeg level) (loopEnd level) (astr.length + 2) 0 0

/-- The leftmost, non-overlapping matches of a regular expression: `m s` is the match at the start
of `s` with the number of characters it consumes.  The result lists matches and the characters
between them; it underlies `re.sub` and `re.findall`. -/
def scan {β : Type} (m : Str → Option (β × Nat)) : Nat → Str → List (β ⊕ Char)
  | 0, _ => []
  | _ + 1, [] => []
  | fuel + 1, c :: s =>
    match m (c :: s) with
    | some (b, n) => .inl b :: scan m fuel (s.drop (n - 1))
    | none => .inr c :: scan m fuel s

/-- All matches (none of the expressions matches the empty string). -/
def matches' {β : Type} (m : Str → Option (β × Nat)) (s : Str) : List (β ⊕ Char) := scan m s.length s

/-- `re.sub` with a replacement function. -/
def reSub {β : Type} (m : Str → Option (β × Nat)) (repl : β → Str) (s : Str) : Str :=
  ((matches' m s).map (Sum.elim repl fun c => [c])).flatten

/-- `(\d+)` at the start of a string: the number and its length. -/
def matchDigits (s : Str) : Option (Nat × Nat) :=
  (pyInt (s.takeWhile Char.isDigit)).map fun n => (n, (s.takeWhile Char.isDigit).length)

/-- `parenrep`, line 146: `\(([^)]*)\)\*(\d+)`. -/
def matchParen : Str → Option ((Str × Nat) × Nat)
  | '(' :: s =>
    match s.dropWhile (· ≠ ')') with
    | ')' :: '*' :: r => (matchDigits r).map fun d =>
        ((s.takeWhile (· ≠ ')'), d.1), (s.takeWhile (· ≠ ')')).length + 3 + d.2)
    | _ => none
  | _ => none

/-- `plainrep`, line 147: `([^*]+)\*(\d+)`. -/
def matchPlain (s : Str) : Option ((Str × Nat) × Nat) :=
  if s.takeWhile (· ≠ '*') = [] then none else
    match s.dropWhile (· ≠ '*') with
    | '*' :: r => (matchDigits r).map fun d =>
        ((s.takeWhile (· ≠ '*'), d.1), (s.takeWhile (· ≠ '*')).length + 1 + d.2)
    | _ => none

/-- `paren_repl`, lines 140-143. -/
def parenRepl (g : Str × Nat) : Str := join [','] (List.replicate g.2 g.1)

/-- `parse_values`, lines 150-159. -/
def parseValues (astr : Str) : List Str :=
  split [','] (join [','] ((split [','] (reSub matchParen parenRepl astr)).map fun x => reSub matchPlain parenRepl (strip x)))

/-- `stripast`, line 162: `\n\s*\*?`. -/
def matchAst : Str → Option (Unit × Nat)
  | '\n' :: s =>
    some ((), 1 + (s.takeWhile isSpace).length + if (s.dropWhile isSpace).head? = some '*' then 1 else 0)
  | _ => none

/-- `named_re`, line 163: `#\s*(\w*)\s*=([^#]*)#`. -/
def matchNamed : Str → Option ((Str × Str) × Nat)
  | '#' :: s =>
    let s1 := s.dropWhile isSpace
    let s2 := s1.dropWhile isWord
    match s2.dropWhile isSpace with
    | '=' :: r =>
      match r.dropWhile (· ≠ '#') with
      | '#' :: _ => some ((s1.takeWhile isWord, r.takeWhile (· ≠ '#')),
          1 + (s.takeWhile isSpace).length + (s1.takeWhile isWord).length + (s2.takeWhile isSpace).length + 1 +
            (r.takeWhile (· ≠ '#')).length + 1)
      | _ => none
    | _ => none
  | _ => none

/-- `named_re.findall(s)`. -/
def findNamed (s : Str) : List (Str × Str) := (matches' matchNamed s).filterMap (Sum.elim some fun _ => none)

/-- The loop of lines 188-197: all value lists must have the length of the first. -/
def collect : Option Nat → List (Str × Str) → Option (List (Str × List Str))
  | _, [] => some []
  | nsub, (name, v) :: reps =>
    let vals := parseValues v
    match nsub with
    | none => (collect (some vals.length) reps).map ((name, vals) :: ·)
    | some n => if n ≠ vals.length then none else (collect nsub reps).map ((name, vals) :: ·)

/-- `parse_loop_header`, lines 168-217: the dictionaries, later names overriding earlier ones. -/
def parseLoopHeader (head : Str) : Option (List Env) :=
  match collect none (findNamed (reSub matchAst (fun _ => []) head)) with
  | none => none
  | some [] => none
  | some ((n1, vals1) :: names) =>
    some ((List.range vals1.length).map fun i => (((n1, vals1) :: names).map fun nv => (nv.1, nv.2.getD i [])).reverse)

/-- `replace_re`, line 220: `@(\w+)@`. -/
def matchRef : Str → Option (Str × Nat)
  | '@' :: s =>
    if s.takeWhile isWord ≠ [] ∧ (s.dropWhile isWord).head? = some '@' then
      some (s.takeWhile isWord, (s.takeWhile isWord).length + 2)
    else none
  | _ => none

/-- Substitute the matches one by one; `none` is ValueError (no definition of a name). -/
def replaceIn (env : Env) : List (Str ⊕ Char) → Option Str
  | [] => some []
  | .inl name :: t => (env.lookup name).bind fun v => (replaceIn env t).map (v ++ ·)
  | .inr c :: t => (replaceIn env t).map (c :: ·)

/-- `replace_re.sub(replace, s)`, lines 227-234. -/
def replaceAll (env : Env) (s : Str) : Option Str := replaceIn env (matches' matchRef s)

/-- `"#line %d\n" % line`. -/
def lineDirective (line : Nat) : Str := "#line ".toList ++ Nat.toDigits 10 line ++ "\n".toList

/-- The loop over `envlist`, lines 252-255; `newenv.update(env)` lets the outer definitions win. -/
def expandEnvs (rec : Env → Option Str) (env : Env) : List Env → Option Str
  | [] => some []
  | newenv :: rest => (rec (env ++ newenv)).bind fun c => (expandEnvs rec env rest).map (c ++ ·)

/-- The loop over the spans, lines 241-257.  `rec text env line` is the recursive call. -/
def walkSpans (rec : Str → Env → Nat → Option Str) (astr : Str) (env : Env) (line : Nat) : List Span → Int → Option Str
  | [], oldend => replaceAll env (pySlice astr oldend astr.length)
  | sub :: spans, oldend =>
    (replaceAll env (pySlice astr oldend sub.start)).bind fun pref =>
    (parseLoopHeader (pySlice astr sub.start sub.textStart)).bind fun envlist =>
    (expandEnvs (fun e => rec (pySlice astr sub.textStart sub.fini1) e (line + sub.line)) env envlist).bind fun code =>
    (walkSpans rec astr env line spans sub.fini2).map fun rest => pref ++ code ++ rest

/-- `parse_string`, lines 223-264.  Every recursive call is on a shorter string, so the length of
the string plus one is enough fuel. -/
def parseString : Nat → Str → Env → Nat → Nat → Option Str
  | 0, _, _, _, _ => none
  | fuel + 1, astr, env, level, line =>
    let struct := parseStructure astr level
    (if struct ≠ [] then walkSpans (fun text e l => parseString fuel text e (level + 1) l) astr env line struct 0
     else replaceAll env astr).map fun code => lineDirective line ++ code ++ "\n".toList

/-- `process_str` without the fixed header, lines 267-270: `global_names` is empty. -/
def processStr (astr : Str) : Option Str := parseString (astr.length + 1) astr [] 0 1

end Ufunclab.ConvTemplate
