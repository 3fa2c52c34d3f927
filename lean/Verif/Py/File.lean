import Verif.Py.Str
import Verif.Py.Sort
/-!
Text files as their decoded content, decimal integers, and the order of strings. A file opened with
`encoding='utf-8'` is its list of code points; decoding errors and OS errors are not modelled. On POSIX `write` stores
`\n` as is; reading in text mode translates `\r\n` and a lone `\r` to `\n` and iteration splits after each `\n` (only).
-/
namespace Py

/-- universal newlines: `\r\n` and `\r` become `\n` -/
def univNewlines : Str → Str
  | [] => []
  | '\r' :: '\n' :: s => '\n' :: univNewlines s
  | c :: s => (if c = '\r' then '\n' else c) :: univNewlines s

/-- worker of `fileLines` -/
def linesGo (cur : Str) : Str → List Str
  | [] => if cur = [] then [] else [cur]
  | c :: s => if c = '\n' then (cur ++ [c]) :: linesGo [] s else linesGo (cur ++ [c]) s

/-- `for line in f`: the lines with their terminators -/
def fileLines (text : Str) : List Str := linesGo [] (univNewlines text)

/-- the decimal digit character of `d < 10` -/
def digitChar (d : Nat) : Char := Char.ofNat (48 + d)

/-- worker of `natStr`; `fuel` above the number of digits -/
def natStrGo : Nat → Nat → Str
  | 0, _ => []
  | fuel + 1, n => if n < 10 then [digitChar n] else natStrGo fuel (n / 10) ++ [digitChar (n % 10)]

/-- `str(n)` of a non-negative int -/
def natStr (n : Nat) : Str := natStrGo (n + 1) n

/-- `str(z)` / `'{}'.format(z)` of an int -/
def intStr : Int → Str
  | .ofNat n => natStr n
  | .negSucc n => '-' :: natStr (n + 1)

/-- the value of an ASCII digit -/
def digitVal (c : Char) : Option Nat := if 48 ≤ c.toNat ∧ c.toNat ≤ 57 then some (c.toNat - 48) else none

/-- worker of `parseNat` -/
def parseNatGo (acc : Nat) : Str → Option Nat
  | [] => some acc
  | c :: s => match digitVal c with
    | some d => parseNatGo (acc * 10 + d) s
    | none => none

/-- a non-empty run of ASCII digits -/
def parseNat (s : Str) : Option Nat := if s = [] then none else parseNatGo 0 s

/-- `int(s)`, restricted to ASCII digits with an optional sign; the other forms Python accepts (surrounding whitespace,
    underscores, non-ASCII digits) are treated as `ValueError` here and are not produced by any modelled writer. -/
def parseInt (s : Str) : PyM Int :=
  match s with
  | '-' :: t => match parseNat t with
    | some n => .ok (-(n : Int))
    | none => .error .valueError
  | '+' :: t => match parseNat t with
    | some n => .ok n
    | none => .error .valueError
  | t => match parseNat t with
    | some n => .ok n
    | none => .error .valueError

/-- `a <= b` on strings: lexicographic by code point -/
def strLe : Str → Str → Bool
  | [], _ => true
  | _ :: _, [] => false
  | a :: s, b :: t => if a.toNat < b.toNat then true else if b.toNat < a.toNat then false else strLe s t

/-! ### lemmas -/

theorem univNewlines_of_no_cr : ∀ (s : Str), '\r' ∉ s → univNewlines s = s
  | [], _ => rfl
  | c :: s, h => by
    have hc : c ≠ '\r' := by rintro rfl; simp at h
    have hs : '\r' ∉ s := by intro hm; exact h (List.mem_cons_of_mem _ hm)
    have ih := univNewlines_of_no_cr s hs
    rw [univNewlines]
    · rw [if_neg hc, ih]
    · rintro s' rfl; exact absurd rfl hc

theorem linesGo_append (cur w s : Str) (hw : '\n' ∉ w) : linesGo cur (w ++ '\n' :: s) = (cur ++ w ++ ['\n']) :: linesGo [] s := by
  induction w generalizing cur with
  | nil => simp [linesGo]
  | cons c w ih =>
    have hc : c ≠ '\n' := by rintro rfl; simp at hw
    rw [List.cons_append, linesGo, if_neg hc, ih _ (fun h => hw (List.mem_cons_of_mem _ h))]
    simp

/-- reading back lines that were written each with a final newline -/
theorem fileLines_written (ls : List Str) (h : ∀ l ∈ ls, '\n' ∉ l ∧ '\r' ∉ l) :
    fileLines (ls.flatMap (fun l => l ++ ['\n'])) = ls.map (· ++ ['\n']) := by
  have hcr : '\r' ∉ ls.flatMap (fun l => l ++ ['\n']) := by
    intro hm
    obtain ⟨l, hl, hm⟩ := List.mem_flatMap.1 hm
    rcases List.mem_append.1 hm with hm | hm
    · exact (h l hl).2 hm
    · simp at hm
  unfold fileLines
  rw [univNewlines_of_no_cr _ hcr]
  clear hcr
  induction ls with
  | nil => rfl
  | cons l ls ih =>
    rw [List.flatMap_cons, List.append_assoc, List.singleton_append, linesGo_append _ _ _ (h l (by simp)).1,
      ih (fun x hx => h x (by simp [hx]))]
    simp

theorem digitVal_digitChar {d : Nat} (h : d < 10) : digitVal (digitChar d) = some d := by
  have hv : (48 + d).isValidChar := by left; omega
  unfold digitVal digitChar
  rw [char_ofNat_toNat hv, if_pos (by omega)]
  simp

theorem isSpace_digitChar {d : Nat} (h : d < 10) : isSpace (digitChar d) = false := by
  have : ∀ d < 10, isSpace (digitChar d) = false := by decide
  exact this d h

theorem digitChar_ne_sign {d : Nat} (h : d < 10) : digitChar d ≠ '-' ∧ digitChar d ≠ '+' := by
  have : ∀ d < 10, digitChar d ≠ '-' ∧ digitChar d ≠ '+' := by decide
  exact this d h

theorem natStrGo_spec (fuel n : Nat) (h : n < fuel) :
    natStrGo fuel n ≠ [] ∧ (∀ c ∈ natStrGo fuel n, ∃ d < 10, c = digitChar d) ∧
    (∀ acc, parseNatGo acc (natStrGo fuel n) = some (acc * 10 ^ (natStrGo fuel n).length + n)) := by
  induction fuel generalizing n with
  | zero => omega
  | succ fuel ih =>
    simp only [natStrGo]
    by_cases hn : n < 10
    · rw [if_pos hn]
      refine ⟨by simp, ?_, ?_⟩
      · intro c hc; simp at hc; exact ⟨n, hn, hc⟩
      · intro acc; simp [parseNatGo, digitVal_digitChar hn]
    · rw [if_neg hn]
      obtain ⟨h1, h2, h3⟩ := ih (n / 10) (by omega)
      refine ⟨by simp, ?_, ?_⟩
      · intro c hc
        rcases List.mem_append.1 hc with hc | hc
        · exact h2 c hc
        · simp at hc; exact ⟨n % 10, by omega, hc⟩
      · intro acc
        have happ : ∀ (s t : Str) (acc : Nat), parseNatGo acc (s ++ t) = (parseNatGo acc s).bind (fun a => parseNatGo a t) := by
          intro s t
          induction s with
          | nil => intro acc; rfl
          | cons c s ih => intro acc; simp only [List.cons_append, parseNatGo]; cases digitVal c <;> simp [ih]
        rw [happ, h3]
        simp only [Option.bind_some, parseNatGo, digitVal_digitChar (show n % 10 < 10 by omega), List.length_append,
          List.length_singleton, Nat.pow_succ, Option.some.injEq]
        generalize 10 ^ (natStrGo fuel (n / 10)).length = P
        have : acc * (P * 10) = acc * P * 10 := by rw [Nat.mul_assoc]
        omega

theorem parseInt_of_digits {s : Str} (hne : s ≠ []) (h : ∀ c ∈ s, ∃ d < 10, c = digitChar d) :
    parseInt s = match parseNat s with | some n => .ok (n : Int) | none => .error .valueError := by
  unfold parseInt
  split
  · obtain ⟨d, hd, e⟩ := h _ (List.mem_cons_self ..); exact absurd e.symm (digitChar_ne_sign hd).1
  · obtain ⟨d, hd, e⟩ := h _ (List.mem_cons_self ..); exact absurd e.symm (digitChar_ne_sign hd).2
  · rfl

/-- `int(str(z)) = z` -/
theorem parseInt_intStr (z : Int) : parseInt (intStr z) = .ok z := by
  cases z with
  | ofNat n =>
    obtain ⟨h1, h2, h3⟩ := natStrGo_spec (n + 1) n (by omega)
    show parseInt (natStr n) = _
    unfold natStr
    rw [parseInt_of_digits h1 h2]
    simp [parseNat, h1, h3]
  | negSucc n =>
    obtain ⟨h1, h2, h3⟩ := natStrGo_spec (n + 1 + 1) (n + 1) (by omega)
    show parseInt ('-' :: natStr (n + 1)) = _
    simp only [parseInt, parseNat, natStr, h1, h3, if_false, Nat.zero_mul, Nat.zero_add]
    rfl

theorem isSpace_minus : isSpace '-' = false := by decide

theorem intStr_word (z : Int) : intStr z ≠ [] ∧ ∀ c ∈ intStr z, isSpace c = false := by
  have key : ∀ n, natStr n ≠ [] ∧ ∀ c ∈ natStr n, isSpace c = false := by
    intro n
    obtain ⟨h1, h2, _⟩ := natStrGo_spec (n + 1) n (by omega)
    refine ⟨h1, fun c hc => ?_⟩
    obtain ⟨d, hd, rfl⟩ := h2 c hc
    exact isSpace_digitChar hd
  cases z with
  | ofNat n => exact key n
  | negSucc n =>
    refine ⟨by simp [intStr], fun c hc => ?_⟩
    simp only [intStr, List.mem_cons] at hc
    rcases hc with rfl | hc
    · exact isSpace_minus
    · exact (key (n + 1)).2 c hc

theorem strLe_refl (s : Str) : strLe s s = true := by induction s <;> simp_all [strLe]

theorem strLe_total (s t : Str) : strLe s t = true ∨ strLe t s = true := by
  induction s generalizing t with
  | nil => simp [strLe]
  | cons a s ih =>
    cases t with
    | nil => simp [strLe]
    | cons b t =>
      simp only [strLe]
      by_cases h1 : a.toNat < b.toNat
      · simp [h1]
      · by_cases h2 : b.toNat < a.toNat
        · simp [h2]
        · simp [h1, h2, ih t]

theorem strLe_trans (s t u : Str) (h : strLe s t = true) (h' : strLe t u = true) : strLe s u = true := by
  induction s generalizing t u with
  | nil => simp [strLe]
  | cons a s ih =>
    cases t with
    | nil => simp [strLe] at h
    | cons b t =>
      cases u with
      | nil => simp [strLe] at h'
      | cons c u =>
        simp only [strLe] at h h' ⊢
        by_cases h1 : a.toNat < c.toNat
        · simp [h1]
        · by_cases h2 : a.toNat < b.toNat
          · by_cases h3 : b.toNat < c.toNat
            · omega
            · have h4 : c.toNat < b.toNat := by omega
              simp [h3, h4] at h'
          · by_cases h5 : b.toNat < a.toNat
            · simp [h2, h5] at h
            · by_cases h3 : b.toNat < c.toNat
              · omega
              · by_cases h4 : c.toNat < b.toNat
                · simp [h3, h4] at h'
                · simp only [h2, h5, if_false] at h
                  simp only [h3, h4, if_false] at h'
                  have : ¬ c.toNat < a.toNat := by omega
                  simp [h1, this, ih t u h h']

theorem strLe_antisymm (s t : Str) (h : strLe s t = true) (h' : strLe t s = true) : s = t := by
  induction s generalizing t with
  | nil => cases t with
    | nil => rfl
    | cons b t => simp [strLe] at h'
  | cons a s ih =>
    cases t with
    | nil => simp [strLe] at h
    | cons b t =>
      simp only [strLe] at h h'
      by_cases h1 : a.toNat < b.toNat
      · have : ¬ b.toNat < a.toNat := by omega
        simp [h1, this] at h'
      · by_cases h2 : b.toNat < a.toNat
        · simp [h1, h2] at h
        · simp only [h1, h2, if_false] at h h'
          rw [char_ext (show a.toNat = b.toNat by omega), ih t h h']

theorem strLe_totalPre : TotalPre strLe := ⟨strLe_trans, strLe_total⟩

end Py
