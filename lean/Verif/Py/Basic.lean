/-
  Python primitives used by the model: strings, whitespace, exceptions.

  Trusted reading of the Python language reference; no soynlp code is modelled here.
-/
namespace Py

/-- A Python `str` as its list of code points (Unicode scalar values only; lone surrogates are not modelled). -/
abbrev Str := List Char

/-- The exceptions the modelled code can raise. -/
inductive PyErr where
  | valueError | keyError | indexError | typeError | attributeError
  | zeroDivision | unboundLocal | nameError | assertion | osError | stopIteration
  deriving DecidableEq, Repr, Inhabited

/-- A Python call: a value or a raised exception. -/
abbrev PyM := Except PyErr

instance {ε α} [DecidableEq ε] [DecidableEq α] : DecidableEq (Except ε α) := fun a b =>
  match a, b with
  | .ok x, .ok y => if h : x = y then isTrue (h ▸ rfl) else isFalse (fun e => h (by cases e; rfl))
  | .error x, .error y => if h : x = y then isTrue (h ▸ rfl) else isFalse (fun e => h (by cases e; rfl))
  | .ok _, .error _ => isFalse (fun e => by cases e)
  | .error _, .ok _ => isFalse (fun e => by cases e)

/-- `_PyUnicode_IsWhitespace`: the characters matched by `\s`, and used by `str.split()` and `str.strip()`. -/
def isSpace (c : Char) : Bool :=
  let n := c.toNat
  (0x09 ≤ n && n ≤ 0x0D) || (0x1C ≤ n && n ≤ 0x20) || n == 0x85 || n == 0xA0 || n == 0x1680 ||
  (0x2000 ≤ n && n ≤ 0x200A) || n == 0x2028 || n == 0x2029 || n == 0x202F || n == 0x205F || n == 0x3000

/-- `str.lstrip()` -/
def lstrip (s : Str) : Str := s.dropWhile isSpace

/-- `str.rstrip()` -/
def rstrip (s : Str) : Str := (s.reverse.dropWhile isSpace).reverse

/-- `str.strip()` -/
def strip (s : Str) : Str := rstrip (lstrip s)

/-- worker of `collapse`: the flag says that the previous character was whitespace -/
def collapseGo : Bool → Str → Str
  | _, [] => []
  | b, c :: cs =>
    if isSpace c then
      if b then collapseGo true cs else ' ' :: collapseGo true cs
    else c :: collapseGo false cs

/-- `re.sub('\s+', ' ', s)` -/
def collapse (s : Str) : Str := collapseGo false s

/-- worker of `splitWs`: `cur` is the word being read -/
def splitGo (cur : Str) : Str → List Str
  | [] => if cur = [] then [] else [cur]
  | c :: cs =>
    if isSpace c then
      if cur = [] then splitGo [] cs else cur :: splitGo [] cs
    else splitGo (cur ++ [c]) cs

/-- `s.split()` (no argument): the maximal whitespace-free pieces -/
def splitWs (s : Str) : List Str := splitGo [] s

/-- worker of `splitOn` -/
def splitOnGo (sep : Char) (cur : Str) : Str → List Str
  | [] => [cur]
  | c :: cs => if c = sep then cur :: splitOnGo sep [] cs else splitOnGo sep (cur ++ [c]) cs

/-- `s.split(sep)` for a one-character separator (keeps empty pieces) -/
def splitOn (sep : Char) (s : Str) : List Str := splitOnGo sep [] s

/-- `sep.join(pieces)` -/
def join (sep : Str) : List Str → Str
  | [] => []
  | [w] => w
  | w :: ws => w ++ sep ++ join sep ws

/-- `list.index(x)` : the first position, `ValueError` if absent -/
def index {α} [DecidableEq α] (l : List α) (x : α) : PyM Nat :=
  match l.findIdx? (· = x) with
  | some i => .ok i
  | none => .error .valueError

/-- `l[i]` for a non-negative index -/
def getItem {α} (l : List α) (i : Nat) : PyM α :=
  match l[i]? with
  | some a => .ok a
  | none => .error .indexError

/-- `chr(n)`; `ValueError` beyond 0x10FFFF. Surrogate code points (which CPython would accept) are treated as
    errors as well; no modelled call can produce them. -/
def chr (n : Nat) : PyM Char :=
  if n.isValidChar then .ok (Char.ofNat n) else .error .valueError

/-- `s[a:b]` for non-negative a, b -/
def slice {α} (s : List α) (a b : Nat) : List α := (s.take b).drop a

end Py
