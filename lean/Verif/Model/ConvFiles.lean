import Mathlib.Data.List.Basic
/-!
# tools/conv_template.py: the functions on files and `unique_key`
-/
namespace Ufunclab.ConvFiles

/-- The files seen by the tool.  `P` are paths, `L` lines.  `content p` is the list of lines of the file
`p`, `none` if it does not exist (`os.path.isfile`).  `target p l` is the path named by the line `l` of
the file `p` if `include_src_re` matches it, with the directory of `p` in front of a relative name
(conv_template.py lines 273-274 and 285-287); the regular expression and `os.path` are not modelled. -/
structure Files (P L : Type) where
  content : P → Option (List L)
  target : P → L → Option P

/-- The loop of lines 281-293 of `resolve_includes` with the recursive call as a parameter. -/
def resolveLines {P L : Type} (fs : Files P L) (rec : P → Option (List L)) (p : P) : List L → List L → Option (List L)
  | [], lines => some lines
  | line :: rest, lines =>
    match fs.target p line with
    | some fn =>
      if (fs.content fn).isSome then do
        let sub ← rec fn
        resolveLines fs rec p rest (lines ++ sub)
      else resolveLines fs rec p rest (lines ++ [line])
    | none => resolveLines fs rec p rest (lines ++ [line])

/-- resolve_includes, conv_template.py lines 277-295.  `depth` is the number of nested calls allowed
(Python's recursion limit); `none` is an exception: too many nested calls, or a file that cannot be
opened. -/
def resolve {P L : Type} (fs : Files P L) : (depth : Nat) → P → Option (List L)
  | 0, _ => none
  | depth + 1, p =>
    match fs.content p with
    | none => none
    | some ls => resolveLines fs (resolve fs depth) p ls []

/-- One candidate of unique_key: `"".join([x[:n] for x in allkeys])`, conv_template.py line 317. -/
def candidate (keys : List (List Char)) (n : Nat) : List Char := (keys.map (List.take n)).flatten

/-- unique_key, conv_template.py lines 308-322: at most `fuel` passes of the loop from `n`; `none` if the
loop is still running. -/
def uniqueKey (keys : List (List Char)) : (fuel n : Nat) → Option (List Char)
  | 0, _ => none
  | fuel + 1, n =>
    let newkey := candidate keys n
    if newkey ∈ keys then uniqueKey keys fuel (n + 1) else some newkey

/-- `path.basename` of POSIX: what follows the last slash. -/
def basename (s : List Char) : List Char := (s.reverse.takeWhile (· ≠ '/')).reverse

/-- The position of the last dot (`rfind`). -/
def lastDot (s : List Char) : Option Nat :=
  if '.' ∈ s then some (s.length - 1 - (s.reverse.takeWhile (· ≠ '.')).length) else none

/-- `path.splitext(s)[0]` of POSIX for a name without slash: cut at the last dot unless only dots precede
it. -/
def splitextRoot (s : List Char) : List Char :=
  match lastDot s with
  | none => s
  | some d => if (s.take d).any (· ≠ '.') then s.take d else s

/-- The file written by `main`, conv_template.py lines 335-338 (`path.join` for a relative name). -/
def outPath (destdir src : List Char) : List Char := destdir ++ ['/'] ++ splitextRoot (basename src)

end Ufunclab.ConvFiles
