import Verif.Proofs.Hangle
import Verif.Proofs.Text
import Verif.Model.HangleEncoder
/-! C03: ConvolutionHangleEncoder. C04: hangle.normalize. -/
namespace Props
open Py Spec Hangle

/-! ### C04 -/

/-- the characters the caller asked to keep -/
def Requested (english number punctuation : Bool) (remains : Char → Bool) (c : Char) : Prop :=
  Korean c ∨ (english = true ∧ (('a' ≤ c ∧ c ≤ 'z') ∨ ('A' ≤ c ∧ c ≤ 'Z'))) ∨ (number = true ∧ '0' ≤ c ∧ c ≤ '9') ∨
  (punctuation = true ∧ c ∈ ['!', '"', '\'', ',', '.', '?', '`']) ∨ remains c = true

instance (e n p : Bool) (r : Char → Bool) (c : Char) : Decidable (Requested e n p r c) :=
  inferInstanceAs (Decidable (_ ∨ _))

/-- requested and not whitespace -/
def Visible (e n p : Bool) (r : Char → Bool) (c : Char) : Bool :=
  decide (Requested e n p r c ∧ c.toNat ∉ whitespace)

private theorem normalizeChar_eq (e n p : Bool) (r : Char → Bool) (c : Char) :
    normalizeChar e n p r c = if decide (Requested e n p r c) then c else ' ' := by
  have hp : (c ∈ ['!', '"', '\'', ',', '.', '?', '`']) ↔
      (c.toNat = 33 ∨ c.toNat = 34 ∨ c.toNat = 39 ∨ c.toNat = 44 ∨ c.toNat = 46 ∨ c.toNat = 63 ∨ c.toNat = 96) := by
    simp only [List.mem_cons, List.not_mem_nil, or_false, ← Char.toNat_inj]; rfl
  simp only [normalizeChar, Requested, hp, Korean, Syllable, Consonant, Vowel, char_le_iff, decide_eq_true_eq,
    Bool.or_eq_true, Bool.and_eq_true, beq_iff_eq,
    show 'a'.toNat = 97 from rfl, show 'z'.toNat = 122 from rfl, show 'A'.toNat = 65 from rfl,
    show 'Z'.toNat = 90 from rfl, show '0'.toNat = 48 from rfl, show '9'.toNat = 57 from rfl]
  repeat' split
  all_goals first | rfl | (exfalso; grind) | (simp_all; done) | skip

private theorem visible_eq (e n p : Bool) (r : Char → Bool) :
    (fun c => decide (Requested e n p r c) && !isSpace c) = Visible e n p r := by
  funext c
  have := isSpace_iff c
  cases h : isSpace c <;> simp_all [Visible]

/-- C04 (a): with repeat removal off, the result is exactly the maximal runs of requested, non-whitespace
    characters of the input, in their order, joined by single blanks. -/
theorem C04_normalize_runs (isWord : Char → Bool) (doc : Str) (e n p : Bool) (r : Char → Bool) :
    Hangle.normalize isWord doc e n p 0 r = blankJoin (runs (Visible e n p r) doc) := by
  have : doc.map (normalizeChar e n p r) = keepOrBlank (fun c => decide (Requested e n p r c)) doc := by
    simp only [keepOrBlank]; congr 1; funext c; exact normalizeChar_eq e n p r c
  simp only [Hangle.normalize, Nat.lt_irrefl, gt_iff_lt, if_false, this, strip_collapse_keepOrBlank, visible_eq]

/-- C04 (b): whatever the flags (repeat removal included), the result is tidy and contains only blanks and
    requested characters. -/
theorem C04_normalize_alphabet (isWord : Char → Bool) (doc : Str) (e n p : Bool) (k : Nat) (r : Char → Bool) :
    Tidy (Hangle.normalize isWord doc e n p k r) ∧
    ∀ c ∈ Hangle.normalize isWord doc e n p k r, c = ' ' ∨ Requested e n p r c := by
  have key : ∀ d, Tidy (Hangle.normalize isWord d e n p 0 r) ∧
      ∀ c ∈ Hangle.normalize isWord d e n p 0 r, c = ' ' ∨ Requested e n p r c := by
    intro d
    rw [C04_normalize_runs]
    constructor
    · apply tidy_blankJoin_runs; intro c hc
      simp only [Visible, decide_eq_true_eq] at hc
      cases hs : isSpace c
      · rfl
      · exact absurd ((isSpace_iff c).1 hs) hc.2
    · intro c hc
      rcases mem_blankJoin_runs _ _ hc with h | h
      · exact Or.inl h
      · simp only [Visible, decide_eq_true_eq] at h; exact Or.inr h.1
  by_cases hk : k > 0
  · have : Hangle.normalize isWord doc e n p k r = Hangle.normalize isWord (repeatSub isWord 4 k doc) e n p 0 r := by
      simp [Hangle.normalize, hk]
    rw [this]; exact key _
  · have : k = 0 := by omega
    subst this; exact key doc

/-- C04 (c): every requested character survives, in order: dropping the whitespace from the result gives the
    requested non-whitespace characters of the input. -/
theorem C04_normalize_keeps (isWord : Char → Bool) (doc : Str) (e n p : Bool) (r : Char → Bool) :
    (Hangle.normalize isWord doc e n p 0 r).filter (fun c => decide (c ≠ ' ')) = doc.filter (Visible e n p r) := by
  rw [C04_normalize_runs, ← runs_flatten (Visible e n p r) doc, ← filter_blankJoin (Visible e n p r) (by simp [Visible, whitespace]) _ (mem_runs _ _)]
  apply List.filter_congr
  intro c hc
  rcases mem_blankJoin_runs _ _ hc with h | h
  · subst h; simp [Visible, whitespace]
  · rw [h]; simp only [Visible, decide_eq_true_eq] at h
    simp; rintro rfl; exact h.2 (by decide)

/-- C04 (d): normalising twice is normalising once. -/
theorem C04_normalize_idempotent (isWord : Char → Bool) (doc : Str) (e n p : Bool) (r : Char → Bool) :
    Hangle.normalize isWord (Hangle.normalize isWord doc e n p 0 r) e n p 0 r =
      Hangle.normalize isWord doc e n p 0 r := by
  rw [C04_normalize_runs isWord doc, C04_normalize_runs, blankJoin_runs_idem _ (by simp [Visible, whitespace])]

/-- a concrete use: English on, a tab in `remains` is still collapsed -/
example : Hangle.normalize (fun _ => false) "가 ab, \t12나!".toList true false false 0 (fun c => c == '\t')
    = "가 ab 나".toList := by decide +kernel

/-! ### C03 -/

open Encoder in
/-- characters the encoder can represent: Korean, blank and ASCII digits -/
def Encodable (c : Char) : Bool := decide ((Korean c ∨ ('0' ≤ c ∧ c ≤ '9')) ∧ c.toNat ∉ whitespace)

private theorem kept_eq : (fun c => Encoder.kept c && !isSpace c) = Encodable := by
  funext c
  have hs := isSpace_iff c
  simp only [Encoder.kept, Encodable, Korean, Syllable, Consonant, Vowel, char_le_iff,
    show '0'.toNat = 48 from rfl, show '9'.toNat = 57 from rfl]
  by_cases hb : c = ' '
  · subst hb; decide
  · have : (c == ' ') = false := by simp [hb]
    rw [Bool.eq_iff_iff]
    cases h : isSpace c <;> simp_all <;> omega

theorem encoder_normalize (s : Str) : Encoder.normalize s = blankJoin (runs Encodable s) := by
  have : Encoder.normalize s = strip (collapse (keepOrBlank Encoder.kept s)) := rfl
  rw [this, strip_collapse_keepOrBlank, kept_eq]

/-- the free jamo table is right for all 51 compatibility jamo -/
private theorem jamo_table : ∀ i ∈ List.range' 0x3131 51,
    ∃ j, Encoder.jamoToIdx.lookup (Char.ofNat i) = some j ∧ j < 79 ∧ Encoder.idxToChar[j]? = some [Char.ofNat i] := by
  decide +kernel

private theorem digit_table : ∀ i ∈ List.range' 48 10,
    Encoder.idxToChar[i - 48 + 68]? = some [Char.ofNat i] := by decide +kernel

private theorem idx_cho (i : Nat) (h : i < 19) : Encoder.idxToChar[i]? = (chosungList[i]?).map (fun c => [c]) := by
  revert i; decide +kernel
private theorem idx_jung (i : Nat) (h : i < 21) : Encoder.idxToChar[19 + i]? = (jungsungList[i]?).map (fun c => [c]) := by
  revert i; decide +kernel
private theorem idx_jong (i : Nat) (h : i < 28) : Encoder.idxToChar[40 + i]? = (jongsungList[i]?).map (fun c => [c]) := by
  revert i; decide +kernel

private def RT (c : Char) : Prop :=
    Encoder.onehotToChar (Encoder.charToOnehot c) = .ok [c] ∧
    (∀ j ∈ Encoder.charToOnehot c, j < 79) ∧
    ((Encoder.charToOnehot c).length = if Syllable c then 3 else 1) ∧ (Encoder.charToOnehot c).Nodup

private theorem rt_single (c : Char) (j : Nat) (hj : j < 79) (ht : Encoder.idxToChar[j]? = some [c])
    (hs : ¬ Syllable c) (e : Encoder.charToOnehot c = [j]) : RT c := by
  unfold RT
  rw [e]
  refine ⟨?_, by simpa using hj, by simp [hs], by simp⟩
  have : j < Encoder.dim := Nat.lt_trans hj (by decide)
  simp only [Encoder.onehotToChar, getItem, ht, this, if_true]

private theorem getItem_map {l : List Char} {L : List Str} {i j : Nat} {c : Char}
    (h : L[j]? = (l[i]?).map (fun c => [c])) (g : getItem l i = .ok c) : getItem L j = .ok [c] := by
  unfold getItem at *
  rw [h]
  cases hq : l[i]? with
  | none => rw [hq] at g; cases g
  | some a => rw [hq] at g; cases g; rfl

private theorem onehotToChar_triple {a b d : Nat} {x y z c : Char} (h1 : a < 19) (h2 : 19 ≤ b ∧ b < 40)
    (h3 : 40 ≤ d ∧ d < 68) (hx : getItem Encoder.idxToChar a = .ok [x]) (hy : getItem Encoder.idxToChar b = .ok [y])
    (hz : getItem Encoder.idxToChar d = .ok [z]) (hc : compose x y z = .ok c) :
    Encoder.onehotToChar [a, b, d] = .ok [c] := by
  simp only [Encoder.onehotToChar]
  rw [if_neg (not_not_intro h1), if_neg (not_not_intro h2), if_neg (not_not_intro h3), hx, hy, hz]
  simp only [bind, Except.bind, hc]

private theorem rt_syllable (c : Char) (h : Syllable c) : RT c := by
  have hsy := h
  obtain ⟨h1, h2⟩ := h
  have hb : c.toNat - 44032 ≤ 11171 := by omega
  have l1 : (c.toNat - 44032) / 588 < 19 := by omega
  have l2 : (c.toNat - 44032 - (c.toNat - 44032) / 588 * 588) / 28 < 21 := by omega
  have l3 : c.toNat - 44032 - (c.toNat - 44032) / 588 * 588 -
    (c.toNat - 44032 - (c.toNat - 44032) / 588 * 588) / 28 * 28 < 28 := by omega
  have e : Encoder.charToOnehot c = [(c.toNat - 44032) / 588, 19 + (c.toNat - 44032 - (c.toNat - 44032) / 588 * 588) / 28,
     40 + (c.toNat - 44032 - (c.toNat - 44032) / 588 * 588 -
    (c.toNat - 44032 - (c.toNat - 44032) / 588 * 588) / 28 * 28)] := by
    have n1 : c.toNat ≠ 32 := by omega
    have n2 : ¬ c.toNat ≤ 57 := by omega
    have n3 : 44032 ≤ c.toNat := by omega
    have n4 : c.toNat ≤ 55203 := by omega
    simp only [Encoder.charToOnehot, Encoder.decompose, korBegin, korEnd, chosungBase, jungsungBase,
      Encoder.jungBegin, Encoder.jongBegin, n1, n2, n3, n4, decide_true, Bool.and_true, Bool.and_false,
      decide_false, if_true, if_false, Bool.false_eq_true]
  have e4 : c.toNat = 0xAC00 + ((c.toNat - 44032) / 588 * 21 + (c.toNat - 44032 - (c.toNat - 44032) / 588 * 588) / 28) * 28 +
     (c.toNat - 44032 - (c.toNat - 44032) / 588 * 588 - (c.toNat - 44032 - (c.toNat - 44032) / 588 * 588) / 28 * 28) := by
    omega
  unfold RT
  rw [e]
  generalize (c.toNat - 44032 - (c.toNat - 44032) / 588 * 588 -
    (c.toNat - 44032 - (c.toNat - 44032) / 588 * 588) / 28 * 28) = k at *
  generalize (c.toNat - 44032 - (c.toNat - 44032) / 588 * 588) / 28 = j at *
  generalize (c.toNat - 44032) / 588 = i at *
  refine ⟨?_, ?_, by simp [hsy], ?_⟩
  · obtain ⟨x, hx, hx'⟩ := getItem_of_table chosung_spec (i := i) (by rw [initial_length]; exact l1)
    obtain ⟨y, hy, hy'⟩ := getItem_of_table jungsung_spec (i := j) (by rw [vowel_length]; exact l2)
    obtain ⟨z, hz, hz'⟩ := getItem_of_table jongsung_spec (i := k) (by rw [final_length]; exact l3)
    obtain ⟨c', hc', e', _⟩ := compose_of_jamoAt (x := x) (y := y) (z := z) ⟨hx', hy', hz'⟩
    have : c' = c := char_ext (e'.trans e4.symm)
    subst this
    have gx : getItem Encoder.idxToChar i = .ok [x] := getItem_map (idx_cho i l1) hx
    have gy : getItem Encoder.idxToChar (19 + j) = .ok [y] := getItem_map (idx_jung j l2) hy
    have gz : getItem Encoder.idxToChar (40 + k) = .ok [z] := getItem_map (idx_jong k l3) hz
    exact onehotToChar_triple l1 ⟨Nat.le_add_right _ _, by omega⟩ ⟨Nat.le_add_right _ _, by omega⟩ gx gy gz hc'
  · intro a ha; simp at ha; omega
  · simp; omega

private theorem roundtrip_char (c : Char) (h : c = ' ' ∨ Encodable c = true) : RT c := by
  rcases h with rfl | h
  · unfold RT; decide +kernel
  simp only [Encodable, decide_eq_true_eq] at h
  obtain ⟨h, hw⟩ := h
  rcases h with (h | h) | h
  · exact rt_syllable c h
  · -- jamo
    have hj : 0x3131 ≤ c.toNat ∧ c.toNat ≤ 0x3163 := by
      rcases h with ⟨a, b⟩ | ⟨a, b⟩ <;> omega
    obtain ⟨j, hj, hl, ht⟩ := jamo_table c.toNat (by rw [List.mem_range'_1]; omega)
    rw [Char.ofNat_toNat] at hj ht
    refine rt_single c j hl ht (by simp only [Syllable]; omega) ?_
    have n1 : c.toNat ≠ 32 := by omega
    have n2 : ¬ c.toNat ≤ 57 := by omega
    have n3 : ¬ korBegin ≤ c.toNat := by simp only [korBegin]; omega
    simp only [Encoder.charToOnehot, Encoder.decompose, n1, n2, n3, Bool.and_false, Bool.false_and,
      decide_false, if_false, Bool.false_eq_true, hj, Option.getD_some]
  · -- digit
    simp only [char_le_iff, show '0'.toNat = 48 from rfl, show '9'.toNat = 57 from rfl] at h
    obtain ⟨h1, h2⟩ := h
    have ht := digit_table c.toNat (by rw [List.mem_range'_1]; omega)
    rw [Char.ofNat_toNat] at ht
    refine rt_single c _ (by omega) ht (by simp only [Syllable]; omega) ?_
    have n1 : c.toNat ≠ 32 := by omega
    simp only [Encoder.charToOnehot, n1, h1, h2, if_false, decide_true, Bool.and_true, if_true]

private theorem roundtrip_list (t : Str) (h : ∀ c ∈ t, c = ' ' ∨ Encodable c = true) :
    Encoder.onehotToSent (t.map Encoder.charToOnehot) = .ok t := by
  induction t with
  | nil => rfl
  | cons c cs ih =>
    simp only [List.map_cons, Encoder.onehotToSent, (roundtrip_char c (h c (by simp))).1,
      ih (fun d hd => h d (by simp [hd])), bind, Except.bind]
    rfl

/-- C03 (a): decoding the encoding of any sentence never raises and gives the sentence with everything but Korean
    characters and digits turned into single separating blanks. -/
theorem C03_roundtrip (s : Str) :
    Encoder.onehotToSent (Encoder.sentToOnehot s) = .ok (blankJoin (runs Encodable s)) := by
  unfold Encoder.sentToOnehot
  rw [encoder_normalize]
  exact roundtrip_list _ (fun c hc => mem_blankJoin_runs _ _ hc)

/-- C03 (b): every emitted index is below 79 (so inside the 80 columns, and never the unknown index); a syllable
    gets three indices, any other character one, all distinct. -/
theorem C03_indices (s : Str) :
    (Encoder.sentToOnehot s).length = (blankJoin (runs Encodable s)).length ∧
    ∀ (i : Nat) (c : Char) (x : List Nat), (blankJoin (runs Encodable s))[i]? = some c → (Encoder.sentToOnehot s)[i]? = some x →
      (∀ j ∈ x, j < 79) ∧ x.Nodup ∧ x.length = if Syllable c then 3 else 1 := by
  unfold Encoder.sentToOnehot
  rw [encoder_normalize]
  refine ⟨by simp, ?_⟩
  intro i c x hc hx
  rw [List.getElem?_map, hc] at hx
  simp at hx; subst hx
  have := roundtrip_char c (mem_blankJoin_runs _ _ (List.mem_of_getElem? hc))
  exact ⟨this.2.1, this.2.2.2, this.2.2.1⟩

private theorem row_foldl (x : List Nat) (row : List Nat) :
    (x.foldl (fun row j => row.set j 1) row).length = row.length ∧
    ∀ k, (x.foldl (fun row j => row.set j 1) row)[k]? = if k ∈ x ∧ k < row.length then some 1 else row[k]? := by
  induction x generalizing row with
  | nil => simp
  | cons a x ih =>
    simp only [List.foldl_cons]
    have := ih (row.set a 1)
    refine ⟨by simpa using this.1, fun k => ?_⟩
    rw [this.2 k]
    by_cases hk : k = a
    · subst hk; simp [List.getElem?_set]; split <;> simp_all
    · simp [hk, Ne.symm hk]

/-- C03 (c): `encode` gives one row of 80 cells per normalised character; cell `j` is 1 exactly when `j` is one of
    the character's indices and 0 otherwise. -/
theorem C03_encode_rows (s : Str) (i : Nat) (row x : List Nat)
    (hr : (Encoder.encode s)[i]? = some row) (hx : (Encoder.sentToOnehot s)[i]? = some x) :
    row.length = 80 ∧ ∀ j, j < 80 → row[j]? = some (if j ∈ x then 1 else 0) := by
  unfold Encoder.encode at hr
  rw [List.getElem?_map, hx] at hr
  simp at hr; subst hr
  have h := row_foldl x (List.replicate Encoder.dim 0)
  refine ⟨by simpa [Encoder.onehotRow] using h.1, fun j hj => ?_⟩
  unfold Encoder.onehotRow
  rw [h.2 j]
  have : j < (List.replicate Encoder.dim 0).length := by simpa using hj
  by_cases hm : j ∈ x <;> simp [hm, hj]

theorem C03_encode_length (s : Str) : (Encoder.encode s).length = (blankJoin (runs Encodable s)).length := by
  rw [Encoder.encode, List.length_map, (C03_indices s).1]

example : blankJoin (runs Encodable "a값 ㅋㅋ!!9".toList) = "값 ㅋㅋ 9".toList := by decide +kernel
example : Encoder.sentToOnehot "a값 ㅋㅋ!!9".toList = [[0, 19, 58], [78], [15], [15], [78], [77]] := by decide +kernel

end Props
