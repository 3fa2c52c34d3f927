import Verif.Model.Hangle
/-!
Model of soynlp/tokenizer/_normalizer.py (exported as `soynlp.tokenizer.normalize`).
-/
namespace TokNorm
open Py Hangle

/-- how many further copies of `u` stand at the start of `s` (the greedy `\1*`); `fuel` bounds the count and is
    always at least `s.length` (soynlp/tokenizer/_normalizer.py:6-11) -/
def copies (u : Str) : Nat → Str → Nat
  | 0, _ => 0
  | fuel + 1, s => if u ≠ [] ∧ u.isPrefixOf s then copies u fuel (s.drop u.length) + 1 else 0

/-- worker of `subWidth`: `skip` characters of the current match are still to be dropped
    (soynlp/tokenizer/_normalizer.py:6-11,25) -/
def subGo (isWord : Char → Bool) (k n : Nat) : Nat → Str → Str
  | _, [] => []
  | skip + 1, _ :: cs => subGo isWord k n skip cs
  | 0, c :: cs =>
    let u := (c :: cs).take k
    let m := copies u cs.length ((c :: cs).drop k)
    if u.length = k ∧ u.all isWord ∧ m ≥ 3 then
      (List.replicate n u).flatten ++ subGo isWord k n (k * (m + 1) - 1) cs
    else c :: subGo isWord k n 0 cs

/-- `re.compile('(\w…\w)\1{3,}').sub('\1' * n, s)` with `k` times `\w` in the group (`k ≥ 1`): scan from the left;
    the group matches the next `k` characters when they are word characters, the greedy `\1{3,}` takes every
    further copy (nothing follows it in the pattern, so it never gives one back); resume after the match.
    (soynlp/tokenizer/_normalizer.py:6-11,25) -/
def subWidth (isWord : Char → Bool) (k n : Nat) (s : Str) : Str := subGo isWord k n 0 s

/-- soynlp/tokenizer/_normalizer.py:22-26 with the patterns of lines 6-11, in their order. `isWord` is `\w`. -/
def removeRepeat (isWord : Char → Bool) (token : Str) (numRepeat : Int) : Str :=
  if numRepeat > 0 then
    let n := numRepeat.toNat
    [4, 3, 2, 1].foldl (fun t k => subWidth isWord k n t) token
  else token

/-- soynlp/tokenizer/_normalizer.py:33-44, the loop body: what is appended for one character `char` with its own
    decomposition `cd` and that of the next character, `nd` -/
def emojiStep (char : Char) (cd nd : Option (Char × Char × Char)) : PyM Str :=
  match cd, nd with
  | some cd, some nd =>
    if nd.2.1 = ' ' ∧ cd.2.2 = nd.1 then do
      let o ← compose cd.1 cd.2.1 ' '
      .ok [o, nd.1]
    else if cd.2.2 = ' ' ∧ nd.1 = ' ' ∧ cd.2.1 = nd.2.1 then
      .ok (if cd.1 ≠ ' ' then [cd.1, cd.2.1] else [cd.2.1])
    else .ok [char]
  | _, _ => .ok [char]

/-- soynlp/tokenizer/_normalizer.py:33-44, the loop over `zip(token, decomposeds, decomposeds[1:])` -/
def emojiLoop : Str → List (Option (Char × Char × Char)) → List (Option (Char × Char × Char)) → PyM (List Str)
  | c :: cs, cd :: cds, nd :: nds => do
    let x ← emojiStep c cd nd
    let xs ← emojiLoop cs cds nds
    .ok (x :: xs)
  | _, _, _ => .ok []

/-- soynlp/tokenizer/_normalizer.py:28-45 -/
def normalizeEmoji (token : Str) : PyM Str :=
  if token.length ≤ 1 then .ok token
  else do
    let ds ← token.mapM decompose
    let xs ← emojiLoop token ds ds.tail
    .ok (xs.flatten ++ (token.getLast?.toList))

/-- soynlp/tokenizer/_normalizer.py:17-20 -/
def normalizeToken (isWord : Char → Bool) (numRepeat : Int) (token : Str) : PyM Str := do
  let t ← normalizeEmoji token
  .ok (removeRepeat isWord t numRepeat)

/-- soynlp/tokenizer/_normalizer.py:13-15 (default `num_repeat=2`) -/
def normalize (isWord : Char → Bool) (sentence : Str) (numRepeat : Int := 2) : PyM Str := do
  let ts ← (splitWs sentence).mapM (normalizeToken isWord numRepeat)
  .ok (join [' '] ts)

end TokNorm
