import Verif.Model.Loaders
import Verif.Data.Adjectives
import Verif.Data.Verbs
import Verif.Data.Eomis
import Verif.Data.Adverbs
import Verif.Data.Josas
import Verif.Props.C82
import Verif.Props.C58
import Verif.Proofs.TokNorm
import Verif.Props.C41_C43
/-! C86: the dictionary files that come with soynlp, and what the extractors do with them. -/
set_option linter.unusedSimpArgs false
namespace Props
open Py Spec Loaders

/-! ### specification -/

/-- the row of a frequency file: a word, white space, a number -/
def FreqRow (line w : Str) (n : Int) : Prop := ∃ f, splitWs line = [w, f] ∧ parseInt f = .ok n

/-- the text of a file of rows `word frequency` -/
def rowText (rows : List (Str × Nat)) : Str := rows.flatMap (fun r => (r.1 ++ [' '] ++ natStr r.2) ++ ['\n'])

/-- the text of a file of lines -/
def lineText (ws : List Str) : Str := ws.flatMap (fun w => w ++ ['\n'])

/-- a word of complete syllables -/
def SyllableWord (w : Str) : Prop := w ≠ [] ∧ ∀ c ∈ w, Syllable c

/-- an ending: it starts with a syllable or with ㄴ, ㄹ, ㅁ or ㅂ, and goes on in syllables -/
def EndingWord (w : Str) : Prop := ∃ e0 es, w = e0 :: es ∧ (Syllable e0 ∨ e0 ∈ ['ㄴ', 'ㄹ', 'ㅁ', 'ㅂ']) ∧ ∀ c ∈ es, Syllable c

/-! ### loading, for every file -/

private theorem loadFreqGo_spec (m : Int) (lines : List Str) :
    (∀ ws, loadFreqGo m lines = .ok ws → (∀ l ∈ lines, ∃ w n, FreqRow l w n) ∧ ∀ w, w ∈ ws ↔ ∃ l ∈ lines, ∃ n, FreqRow l w n ∧ m ≤ n) ∧
    (∀ e, loadFreqGo m lines = .error e → e = .valueError ∧ ∃ l ∈ lines, ¬ ∃ w n, FreqRow l w n) := by
  have perr : ∀ (s : Str) e, parseInt s = .error e → e = .valueError := by
    intro s e h
    unfold parseInt at h
    split at h <;> split at h <;> cases h <;> rfl
  induction lines with
  | nil =>
    refine ⟨fun ws h => ?_, fun e h => by (cases h)⟩
    cases h
    exact ⟨fun l hl => absurd hl (by simp), fun w => by simp⟩
  | cons l ls ih =>
    obtain ⟨i1, i2⟩ := ih
    have key : (∃ w n, FreqRow l w n) ∨ ¬ ∃ w n, FreqRow l w n := Classical.em _
    rcases key with ⟨w, n, f, h1, h2⟩ | hno
    · have hrow : ∀ w' n', FreqRow l w' n' ↔ w' = w ∧ n' = n := by
        intro w' n'
        constructor
        · rintro ⟨f', h3, h4⟩
          rw [h1] at h3
          cases h3
          rw [h2] at h4
          cases h4
          exact ⟨rfl, rfl⟩
        · rintro ⟨rfl, rfl⟩; exact ⟨f, h1, h2⟩
      simp only [loadFreqGo, h1, h2]
      cases hg : loadFreqGo m ls with
      | error e =>
        refine ⟨fun ws h => by (cases h), fun e' h => ?_⟩
        cases h
        obtain ⟨h3, l', h4, h5⟩ := i2 e hg
        exact ⟨h3, l', by simp [h4], h5⟩
      | ok ws =>
        obtain ⟨j1, j2⟩ := i1 ws hg
        simp only
        refine ⟨fun ws' h => ?_, fun e' h => by (split at h <;> cases h)⟩
        refine ⟨fun l' hl' => ?_, fun v => ?_⟩
        · rcases List.mem_cons.1 hl' with rfl | hl'
          · exact ⟨w, n, f, h1, h2⟩
          · exact j1 l' hl'
        · have hv := j2 v
          rw [List.exists_mem_cons_iff, ← hv]
          split at h
          · next hlt =>
            cases h
            constructor
            · exact .inr
            · rintro (⟨n', h3, h4⟩ | h3)
              · obtain ⟨rfl, rfl⟩ := (hrow _ _).1 h3; omega
              · exact h3
          · next hlt =>
            cases h
            rw [List.mem_cons]
            constructor
            · rintro (rfl | h3)
              · exact .inl ⟨n, (hrow _ _).2 ⟨rfl, rfl⟩, by omega⟩
              · exact .inr h3
            · rintro (⟨n', h3, h4⟩ | h3)
              · exact .inl ((hrow _ _).1 h3).1
              · exact .inr h3
    · have : loadFreqGo m (l :: ls) = .error .valueError := by
        unfold loadFreqGo
        split
        · next w f hs =>
          cases hp : parseInt f with
          | error e => rw [perr _ _ hp]
          | ok n => exact absurd ⟨w, n, f, hs, hp⟩ hno
        · rfl
      rw [this]
      exact ⟨fun ws h => by (cases h), fun e h => by (cases h; exact ⟨rfl, l, by simp, hno⟩)⟩

/-- C86 (a): a file of stems or endings is read exactly if every line consists of a word and a number, and then gives the words whose number reaches the
    minimum; otherwise `ValueError` -/
theorem C86_load_freq (m : Int) (text : Str) :
    ((∃ ws, loadFreq m text = .ok ws) ↔ ∀ l ∈ fileLines text, ∃ w n, FreqRow l w n) ∧
    (∀ ws, loadFreq m text = .ok ws → ∀ w, w ∈ ws ↔ ∃ l ∈ fileLines text, ∃ n, FreqRow l w n ∧ m ≤ n) ∧
    (∀ e, loadFreq m text = .error e → e = .valueError) := by
  obtain ⟨h1, h2⟩ := loadFreqGo_spec m (fileLines text)
  refine ⟨⟨fun ⟨ws, h⟩ => (h1 ws h).1, fun h => ?_⟩, fun ws h => (h1 ws h).2, fun e h => (h2 e h).1⟩
  unfold loadFreq
  cases hg : loadFreqGo m (fileLines text) with
  | ok ws => exact ⟨ws, rfl⟩
  | error e =>
    obtain ⟨_, l, hl, hno⟩ := h2 e hg
    exact absurd (h l hl) hno

example : loadFreq 2 "가 3\n나다\t1\n  다 2 \n".toList = .ok ["가".toList, "다".toList] := by decide +kernel
example : loadFreq 2 "가 3\n나 다 1\n".toList = .error .valueError := by decide +kernel

private theorem splitGo_trail (s t cur : Str) (ht : ∀ c ∈ t, isSpace c = true) : splitGo cur (s ++ t) = splitGo cur s := by
  have tail : ∀ t : Str, (∀ c ∈ t, isSpace c = true) → splitGo [] t = [] := by
    intro t
    induction t with
    | nil => intro _; rfl
    | cons c t ih => intro h; simp only [splitGo, h c (by simp), if_true]; exact ih (fun x hx => h x (by simp [hx]))
  induction s generalizing cur with
  | nil =>
    cases t with
    | nil => rfl
    | cons c t =>
      have h1 := tail t (fun x hx => ht x (by simp [hx]))
      simp only [List.nil_append, splitGo, ht c (by simp), if_true, h1]
  | cons c s ih =>
    simp only [List.cons_append, splitGo]
    rw [ih, ih]

private theorem takeWhile_mem (s : Str) (c : Char) (h : c ∈ s.takeWhile isSpace) : isSpace c = true := by
  induction s with
  | nil => simp at h
  | cons a s ih =>
    rw [List.takeWhile_cons] at h
    split at h
    · next ha =>
      rcases List.mem_cons.1 h with rfl | h
      · exact ha
      · exact ih h
    · simp at h

private theorem splitWs_strip (s : Str) : splitWs (strip s) = splitWs s := by
  have h1 : splitWs (lstrip s) = splitWs s := by
    unfold lstrip splitWs
    induction s with
    | nil => rfl
    | cons c s ih =>
      rw [List.dropWhile_cons]
      by_cases h : isSpace c = true
      · rw [if_pos h, ih]; simp only [splitGo, h, if_true]
      · rw [if_neg h]
  have h2 : ∀ s : Str, splitWs (rstrip s) = splitWs s := by
    intro s
    have e : s = rstrip s ++ (s.reverse.takeWhile isSpace).reverse := by
      unfold rstrip
      rw [← List.reverse_append, List.takeWhile_append_dropWhile, List.reverse_reverse]
    conv => rhs; rw [e]
    unfold splitWs
    rw [splitGo_trail]
    intro c hc
    rw [List.mem_reverse] at hc
    exact takeWhile_mem _ _ hc
  unfold strip
  rw [h2, h1]

/-- C86 (b): a file of adverbs is read exactly if no line is blank, and gives the first field of every line; otherwise `IndexError` -/
theorem C86_load_adverbs (text : Str) :
    ((∃ ws, loadAdverbs text = .ok ws) ↔ ∀ l ∈ fileLines text, splitWs l ≠ []) ∧
    (∀ ws, loadAdverbs text = .ok ws → ∀ w, w ∈ ws ↔ ∃ l ∈ fileLines text, (splitWs l).head? = some w) ∧
    (∀ e, loadAdverbs text = .error e → e = .indexError) := by
  have hget : ∀ l : Str, getItem (splitWs (strip l)) 0 = match (splitWs l).head? with | some w => .ok w | none => .error .indexError := by
    intro l
    rw [splitWs_strip]
    unfold getItem
    rw [List.head?_eq_getElem?]
    cases (splitWs l)[0]? <;> rfl
  unfold loadAdverbs
  generalize fileLines text = lines
  induction lines with
  | nil =>
    refine ⟨⟨fun _ l hl => absurd hl (by simp), fun _ => ⟨[], rfl⟩⟩, fun ws h w => ?_, fun e h => by (cases h)⟩
    cases h
    simp
  | cons l ls ih =>
    obtain ⟨i1, i2, i3⟩ := ih
    rw [List.mapM_cons, hget l]
    cases hh : (splitWs l).head? with
    | none =>
      have hnil : splitWs l = [] := List.head?_eq_none_iff.1 hh
      simp only
      refine ⟨⟨fun ⟨ws, h⟩ => by (cases h), fun h => absurd hnil (h l (by simp))⟩, fun ws h => by (cases h), fun e h => by (cases h; rfl)⟩
    | some w0 =>
      have hne : splitWs l ≠ [] := by intro h; rw [h] at hh; cases hh
      simp only
      cases hm : ls.mapM (m := PyM) (fun word => getItem (splitWs (strip word)) 0) with
      | error e =>
        rw [hm] at i1
        refine ⟨⟨fun ⟨ws, h⟩ => by (cases h), fun h => ?_⟩, fun ws h => by (cases h), fun e' h => ?_⟩
        · obtain ⟨ws, h⟩ := i1.2 (fun l' hl' => h l' (by simp [hl'])); cases h
        · cases h; exact i3 e hm
      | ok ws =>
        rw [hm] at i1
        refine ⟨⟨fun _ l' hl' => ?_, fun _ => ⟨w0 :: ws, rfl⟩⟩, fun ws' h v => ?_, fun e h => by (cases h)⟩
        · rcases List.mem_cons.1 hl' with rfl | hl'
          · exact hne
          · exact i1.1 ⟨ws, rfl⟩ l' hl'
        · cases h
          rw [List.mem_cons, List.exists_mem_cons_iff, ← i2 ws hm, hh, Option.some.injEq]
          exact or_congr_left ⟨fun h => h.symm, fun h => h.symm⟩

example : loadAdverbs "가끔 3\n 더 \n".toList = .ok ["가끔".toList, "더".toList] := by decide +kernel

/-! ### the packaged files -/

private def sylWordB (w : Str) : Bool := !w.isEmpty && w.all (fun c => decide (0xAC00 ≤ c.toNat ∧ c.toNat ≤ 0xD7A3))
private def endingB : Str → Bool
  | e0 :: es => (decide (0xAC00 ≤ e0.toNat ∧ e0.toNat ≤ 0xD7A3) || ['ㄴ', 'ㄹ', 'ㅁ', 'ㅂ'].contains e0) && es.all (fun c => decide (0xAC00 ≤ c.toNat ∧ c.toNat ≤ 0xD7A3))
  | [] => false
private def cleanB (w : Str) : Bool := !w.isEmpty && w.all (fun c => !isSpace c)

private theorem adj_ok : Data.adjectivesParts.all (fun c => c.all (fun r => cleanB r.1 && (decide (r.2 < 2) || sylWordB r.1))) = true := by decide +kernel
private theorem verb_ok : Data.verbsParts.all (fun c => c.all (fun r => cleanB r.1 && (decide (r.2 < 2) || sylWordB r.1))) = true := by decide +kernel
private theorem eomi_ok : Data.eomisParts.all (fun c => c.all (fun r => cleanB r.1 && (decide (r.2 < 20) || endingB r.1 || decide (r.1 = ['ㅔ', '요'] ∨ r.1 = ['ㅑ'])))) = true := by
  decide +kernel
private theorem adverb_ok : Data.adverbsParts.all (fun c => c.all (fun r => cleanB r.1)) = true := by decide +kernel
private theorem josa_ok : Data.josasParts.all (fun c => c.all cleanB) = true := by decide +kernel


private theorem cleanB_iff {w : Str} (h : cleanB w = true) : w ≠ [] ∧ ∀ c ∈ w, isSpace c = false := by
  unfold cleanB at h
  rw [Bool.and_eq_true, List.all_eq_true] at h
  exact ⟨by rintro rfl; simp at h, fun c hc => by simpa using h.2 c hc⟩

private theorem sylWordB_iff {w : Str} (h : sylWordB w = true) : SyllableWord w := by
  unfold sylWordB at h
  rw [Bool.and_eq_true, List.all_eq_true] at h
  exact ⟨by rintro rfl; simp at h, fun c hc => by simpa [Syllable] using h.2 c hc⟩

private theorem endingB_iff {w : Str} (h : endingB w = true) : EndingWord w := by
  cases w with
  | nil => simp [endingB] at h
  | cons e0 es =>
    unfold endingB at h
    rw [Bool.and_eq_true, List.all_eq_true, Bool.or_eq_true, decide_eq_true_iff] at h
    refine ⟨e0, es, rfl, h.1.imp id (fun h => by simpa using h), fun c hc => by simpa [Syllable] using h.2 c hc⟩

private theorem no_newline {w : Str} (h : ∀ c ∈ w, isSpace c = false) : '\n' ∉ w ∧ '\r' ∉ w :=
  ⟨fun hm => absurd (h _ hm) (by decide), fun hm => absurd (h _ hm) (by decide)⟩

private theorem parts_all {α : Type} {P : α → Bool} {ps : List (List α)} (h : ps.all (fun c => c.all P) = true) : ∀ r ∈ ps.flatten, P r = true := by
  intro r hr
  obtain ⟨c, hc, hrc⟩ := List.mem_flatten.1 hr
  exact List.all_eq_true.1 (List.all_eq_true.1 h c hc) r hrc

private theorem natStr_eq (n : Nat) : natStr n = intStr (n : Int) := rfl

/-- the lines of a file of rows -/
private theorem rowText_lines {rows : List (Str × Nat)} (h : ∀ r ∈ rows, cleanB r.1 = true) :
    fileLines (rowText rows) = rows.map (fun r => (r.1 ++ [' '] ++ natStr r.2) ++ ['\n']) ∧
    ∀ r ∈ rows, splitWs ((r.1 ++ [' '] ++ natStr r.2) ++ ['\n']) = [r.1, natStr r.2] := by
  have hw : ∀ n, natStr n ≠ [] ∧ ∀ c ∈ natStr n, isSpace c = false := fun n => by rw [natStr_eq]; exact intStr_word _
  constructor
  · unfold rowText
    have e : rows.flatMap (fun r => (r.1 ++ [' '] ++ natStr r.2) ++ ['\n']) = (rows.map (fun r => r.1 ++ [' '] ++ natStr r.2)).flatMap (fun l => l ++ ['\n']) := by
      rw [List.flatMap_map]
    rw [e, fileLines_written, List.map_map]
    · rfl
    · intro l hl
      obtain ⟨r, hr, rfl⟩ := List.mem_map.1 hl
      obtain ⟨h1, h2⟩ := no_newline (cleanB_iff (h r hr)).2
      obtain ⟨h3, h4⟩ := no_newline (hw r.2).2
      simp only [List.mem_append, List.mem_singleton, not_or]
      exact ⟨⟨⟨h1, by decide⟩, h3⟩, ⟨h2, by decide⟩, h4⟩
  · intro r hr
    have h1 := cleanB_iff (h r hr)
    have e : splitWs (join [' '] [r.1, natStr r.2]) = [r.1, natStr r.2] := splitWs_join _ (by
      intro w hw'
      rcases List.mem_cons.1 hw' with rfl | hw'
      · exact h1
      · rw [List.mem_singleton] at hw'
        subst hw'
        exact hw r.2)
    unfold splitWs
    rw [splitGo_trail _ _ _ (by intro c hc; rw [List.mem_singleton] at hc; subst hc; decide)]
    exact e

private theorem rowText_freq {rows : List (Str × Nat)} (h : ∀ r ∈ rows, cleanB r.1 = true) (m : Int) :
    ∃ ws, loadFreq m (rowText rows) = .ok ws ∧ ∀ w, w ∈ ws ↔ ∃ n : Nat, (w, n) ∈ rows ∧ m ≤ n := by
  obtain ⟨e1, e2⟩ := rowText_lines h
  obtain ⟨h1, h2, _⟩ := C86_load_freq m (rowText rows)
  have hrow : ∀ r ∈ rows, ∀ w k, FreqRow ((r.1 ++ [' '] ++ natStr r.2) ++ ['\n']) w k ↔ w = r.1 ∧ k = (r.2 : Int) := by
    intro r hr w k
    unfold FreqRow
    rw [e2 r hr]
    have hp : parseInt (natStr r.2) = .ok (r.2 : Int) := by rw [natStr_eq]; exact parseInt_intStr _
    constructor
    · rintro ⟨f, a, b⟩
      cases a
      rw [hp] at b
      cases b
      exact ⟨rfl, rfl⟩
    · rintro ⟨rfl, rfl⟩; exact ⟨_, rfl, hp⟩
  obtain ⟨ws, hws⟩ := h1.2 (by
    intro l hl
    rw [e1] at hl
    obtain ⟨r, hr, rfl⟩ := List.mem_map.1 hl
    exact ⟨_, _, (hrow r hr _ _).2 ⟨rfl, rfl⟩⟩)
  refine ⟨ws, hws, fun w => ?_⟩
  rw [h2 ws hws, e1]
  constructor
  · rintro ⟨l, hl, n, h3, h4⟩
    obtain ⟨r, hr, rfl⟩ := List.mem_map.1 hl
    obtain ⟨rfl, rfl⟩ := (hrow r hr _ _).1 h3
    exact ⟨r.2, hr, h4⟩
  · rintro ⟨n, hr, h4⟩
    exact ⟨_, List.mem_map.2 ⟨_, hr, rfl⟩, n, (hrow _ hr _ _).2 ⟨rfl, rfl⟩, h4⟩

private theorem rowText_adverbs {rows : List (Str × Nat)} (h : ∀ r ∈ rows, cleanB r.1 = true) :
    ∃ ws, loadAdverbs (rowText rows) = .ok ws ∧ ∀ w, w ∈ ws ↔ ∃ n : Nat, (w, n) ∈ rows := by
  obtain ⟨e1, e2⟩ := rowText_lines h
  obtain ⟨h1, h2, _⟩ := C86_load_adverbs (rowText rows)
  obtain ⟨ws, hws⟩ := h1.2 (by
    intro l hl
    rw [e1] at hl
    obtain ⟨r, hr, rfl⟩ := List.mem_map.1 hl
    rw [e2 r hr]; simp)
  refine ⟨ws, hws, fun w => ?_⟩
  rw [h2 ws hws, e1]
  constructor
  · rintro ⟨l, hl, h3⟩
    obtain ⟨r, hr, rfl⟩ := List.mem_map.1 hl
    rw [e2 r hr, List.head?_cons] at h3
    cases h3
    exact ⟨r.2, hr⟩
  · rintro ⟨n, hr⟩
    exact ⟨_, List.mem_map.2 ⟨_, hr, rfl⟩, by rw [e2 _ hr]; rfl⟩

private theorem lineText_josa {ws : List Str} (h : ∀ w ∈ ws, cleanB w = true) : loadJosa (lineText ws) = ws := by
  unfold loadJosa lineText
  rw [fileLines_written _ (fun l hl => no_newline (cleanB_iff (h l hl)).2), List.map_map]
  conv => rhs; rw [← List.map_id ws]
  refine List.map_congr_left (fun w hw => ?_)
  obtain ⟨h1, h2⟩ := cleanB_iff (h w hw)
  show strip (w ++ ['\n']) = w
  unfold strip
  have hl : ∀ t : Str, lstrip (w ++ t) = w ++ t := by
    intro t
    cases w with
    | nil => exact absurd rfl h1
    | cons c w => unfold lstrip; rw [List.cons_append, List.dropWhile_cons_of_neg (by rw [h2 c (by simp)]; simp)]
  rw [hl, rstrip_append_space _ _ (by intro c hc; rw [List.mem_singleton] at hc; subst hc; decide)]
  exact rstrip_eq_self (fun c hc => h2 c (List.mem_of_getLast? hc))

private theorem adj_all : ∀ r ∈ Data.adjectives, cleanB r.1 = true ∧ (r.2 < 2 ∨ SyllableWord r.1) := by
  unfold Data.adjectives
  intro r hr
  have := parts_all adj_ok r hr
  rw [Bool.and_eq_true, Bool.or_eq_true, decide_eq_true_iff] at this
  exact ⟨this.1, this.2.imp id sylWordB_iff⟩
private theorem verb_all : ∀ r ∈ Data.verbs, cleanB r.1 = true ∧ (r.2 < 2 ∨ SyllableWord r.1) := by
  unfold Data.verbs
  intro r hr
  have := parts_all verb_ok r hr
  rw [Bool.and_eq_true, Bool.or_eq_true, decide_eq_true_iff] at this
  exact ⟨this.1, this.2.imp id sylWordB_iff⟩
private theorem eomi_all : ∀ r ∈ Data.eomis, cleanB r.1 = true ∧ (r.2 < 20 ∨ EndingWord r.1 ∨ r.1 = ['ㅔ', '요'] ∨ r.1 = ['ㅑ']) := by
  unfold Data.eomis
  intro r hr
  have := parts_all eomi_ok r hr
  rw [Bool.and_eq_true, Bool.or_eq_true, Bool.or_eq_true, decide_eq_true_iff, decide_eq_true_iff] at this
  obtain ⟨h1, (h2 | h2) | h2⟩ := this
  · exact ⟨h1, .inl h2⟩
  · exact ⟨h1, .inr (.inl (endingB_iff h2))⟩
  · exact ⟨h1, .inr (.inr h2)⟩
private theorem adverb_all : ∀ r ∈ Data.adverbs, cleanB r.1 = true := by
  unfold Data.adverbs
  exact parts_all adverb_ok
private theorem josa_all : ∀ r ∈ Data.josas, cleanB r = true := by
  unfold Data.josas
  exact parts_all josa_ok

/-- the dictionaries made of the packaged files: `Data.adjectives` and so on hold every row of those files -/
def packaged (feats : V2.Features) : PyM NewsPos.Dictionaries :=
  defaults feats (lineText Data.josas) (rowText Data.adjectives) (rowText Data.verbs) (rowText Data.eomis) (rowText Data.adverbs)

/-- what the packaged dictionaries hold -/
structure PackagedWords (feats : V2.Features) (D : NewsPos.Dictionaries) : Prop where
  feats : D.feats = feats
  adjectives : ∀ w, w ∈ D.adjectives ↔ ∃ n, (w, n) ∈ Data.adjectives ∧ 2 ≤ n
  verbs : ∀ w, w ∈ D.verbs ↔ ∃ n, (w, n) ∈ Data.verbs ∧ 2 ≤ n
  eomis : ∀ w, w ∈ D.eomis ↔ ∃ n, (w, n) ∈ Data.eomis ∧ 20 ≤ n
  adverbs : ∀ w, w ∈ D.adverbs ↔ ∃ n, (w, n) ∈ Data.adverbs
  josas : D.josas = Data.josas
  /-- stems are written in complete syllables -/
  stemWords : ∀ x, NewsStem D x → SyllableWord x
  /-- so are endings, but for a consonant that may come first, and with two exceptions -/
  eomiWords : ∀ y ∈ D.eomis, EndingWord y ∨ y = "ㅔ요".toList ∨ y = "ㅑ".toList
  /-- no word is empty -/
  nonempty : [] ∉ D.josas ∧ [] ∉ D.adverbs

private theorem defaults_ok {feats : V2.Features} {t1 t2 t3 t4 t5 : Str} {J A V E B : List Str} (h1 : loadJosa t1 = J) (h2 : loadFreq 2 t2 = .ok A)
    (h3 : loadFreq 2 t3 = .ok V) (h4 : loadFreq 20 t4 = .ok E) (h5 : loadAdverbs t5 = .ok B) : defaults feats t1 t2 t3 t4 t5 = .ok ⟨feats, J, A, V, E, B⟩ := by
  unfold defaults
  simp only [h1, h2, h3, h4, h5]

/-- C86 (c): the packaged files are read without an exception, and hold well-formed words -/
theorem C86_packaged (feats : V2.Features) : ∃ D, packaged feats = .ok D ∧ PackagedWords feats D := by
  have ha := adj_all
  have hv := verb_all
  have he := eomi_all
  have hb := adverb_all
  have hj := josa_all
  obtain ⟨A, a1, a2⟩ := rowText_freq (rows := Data.adjectives) (fun r hr => (ha r hr).1) 2
  obtain ⟨V, v1, v2⟩ := rowText_freq (rows := Data.verbs) (fun r hr => (hv r hr).1) 2
  obtain ⟨E, e1, e2⟩ := rowText_freq (rows := Data.eomis) (fun r hr => (he r hr).1) 20
  obtain ⟨B, b1, b2⟩ := rowText_adverbs (rows := Data.adverbs) hb
  have j1 : loadJosa (lineText Data.josas) = Data.josas := lineText_josa hj
  have cast2 : ∀ n : Nat, (2 : Int) ≤ n ↔ 2 ≤ n := fun n => by omega
  have cast20 : ∀ n : Nat, (20 : Int) ≤ n ↔ 20 ≤ n := fun n => by omega
  refine ⟨⟨feats, Data.josas, A, V, E, B⟩, ?_, rfl, ?_, ?_, ?_, b2, rfl, ?_, ?_, ?_⟩
  · exact defaults_ok j1 a1 v1 e1 b1
  · intro w; simp only [a2, cast2]
  · intro w; simp only [v2, cast2]
  · intro w; simp only [e2, cast20]
  · rintro x (hx | hx)
    · obtain ⟨n, hr, hn⟩ := (a2 x).1 hx
      rcases (ha _ hr).2 with h | h
      · exfalso; dsimp only at h; omega
      · exact h
    · obtain ⟨n, hr, hn⟩ := (v2 x).1 hx
      rcases (hv _ hr).2 with h | h
      · exfalso; dsimp only at h; omega
      · exact h
  · intro y hy
    obtain ⟨n, hr, hn⟩ := (e2 y).1 hy
    rcases (he _ hr).2 with h | h | h
    · exfalso; dsimp only at h; omega
    · exact .inl h
    · exact .inr h
  · constructor
    · intro h; exact (cleanB_iff (hj _ h)).1 rfl
    · intro h
      obtain ⟨n, hr⟩ := (b2 _).1 h
      exact (cleanB_iff (hb _ hr)).1 rfl

/-- C86 (d): every packaged stem can be conjugated by itself and, with vowel harmony or without, with every packaged ending, giving at least one form - except
    with ㅔ요 and ㅑ, which no stem can be conjugated with -/
theorem C86_conjugates (feats : V2.Features) (D : NewsPos.Dictionaries) (h : packaged feats = .ok D) (x : Str) (hx : NewsStem D x) :
    (∃ out, Lemma.conjugateStem x = .ok out ∧ out ≠ []) ∧
    ∀ y ∈ D.eomis, ∀ enforce,
      (y ≠ "ㅔ요".toList → y ≠ "ㅑ".toList → ∃ forms, Lemma.conjugate x y enforce = .ok forms ∧ forms ≠ []) ∧
      (y = "ㅔ요".toList ∨ y = "ㅑ".toList → Lemma.conjugate x y enforce = .error .valueError) := by
  obtain ⟨D', h', P⟩ := C86_packaged feats
  rw [h] at h'
  cases h'
  obtain ⟨hne, hs⟩ := P.stemWords x hx
  obtain ⟨front, c, rfl⟩ : ∃ front c, x = front ++ [c] := ⟨x.dropLast, x.getLast hne, (List.dropLast_append_getLast hne).symm⟩
  have hc : Syllable c := hs c (by simp)
  constructor
  · obtain ⟨a, b, d, hd⟩ : ∃ x y z, IsSyllableOf c x y z := by
      rcases TokNorm.kinds c with h | h | h | h
      · exact h
      · exfalso; unfold Syllable at hc; unfold Consonant at h; omega
      · exfalso; unfold Syllable at hc; unfold Vowel at h; omega
      · exact absurd (.inl hc) h
    obtain ⟨out, ho, hm⟩ := C58_surfaces front c a b d hd (fun _ q hq => hs q (by
      rw [List.mem_append]; exact .inl (List.mem_of_getLast? hq)))
    exact ⟨out, ho, List.ne_nil_of_mem ((hm _).2 .self)⟩
  · intro y hy enforce
    constructor
    · intro n1 n2
      rcases P.eomiWords y hy with h | h | h
      · obtain ⟨e0, es, rfl, h0, _⟩ := h
        have h0' : Syllable e0 ∨ Consonant e0 := h0.imp id (fun h => by
          simp only [List.mem_cons, List.not_mem_nil, or_false] at h
          rcases h with rfl | rfl | rfl | rfl <;> (unfold Consonant; decide))
        have hl : ¬ LostVowel (front ++ [c]) e0 := by
          rintro ⟨rfl, _⟩
          rcases h0 with h | h
          · unfold Syllable at h; revert h; decide
          · revert h; decide
        obtain ⟨forms, h1, h2⟩ := C43_total (front ++ [c]) (e0 :: es) e0 enforce hne hs rfl h0' hl
        refine ⟨forms, h1, h2 (h0.imp id (fun h => ?_))⟩
        simp only [List.mem_cons, List.not_mem_nil, or_false] at h ⊢
        rcases h with rfl | rfl | rfl | rfl <;> simp
      · exact absurd h n1
      · exact absurd h n2
    · intro hv
      have hl : (front ++ [c]).getLast? = some c := List.getLast?_concat
      rcases hv with rfl | rfl
      · exact C43_vowel _ _ 'ㅔ' c enforce hl (.inl hc) rfl (by unfold Vowel; decide)
      · exact C43_vowel _ _ 'ㅑ' c enforce hl (.inl hc) rfl (by unfold Vowel; decide)

/-- C86 (e): a `NewsPOSExtractor` made without arguments can be trained on exactly the non-empty corpora on which its progress messages do not divide by zero:
    none of the packaged words makes it fail -/
theorem C86_trains (feats : V2.Features) (D : NewsPos.Dictionaries) (h : packaged feats = .ok D) (o : NewsPos.Orders) (hn : ∀ i l, (o.nouns i l).Perm l)
    (hS : ∀ l, (o.stems l).Perm l) (hL : ∀ l, (o.lemmas l).Perm l) (p : NewsPos.TrainParams) (sents : List Str) :
    (∃ s, NewsPos.train D o p sents = .ok s) ↔ sents ≠ [] ∧
      (p.verbose = true → (∃ w, 1 ≤ newsCount p sents w ∧ p.minEojeolFrequency ≤ newsCount p sents w ∧ w.length ≤ 19) ∧
        ∃ w, 2 ≤ normCount sents w ∧ p.minEojeolFrequency ≤ normCount sents w ∧ w.length ≤ 15) := by
  rw [C82_succeeds D o hn hS hL p sents]
  constructor
  · rintro ⟨h1, h2, _⟩; exact ⟨h1, h2⟩
  · rintro ⟨h1, h2⟩
    refine ⟨h1, h2, fun _ x hx => ?_, fun hx => ?_⟩
    · obtain ⟨out, ho, _⟩ := (C86_conjugates feats D h x hx).1
      exact ⟨out, ho⟩
    · obtain ⟨D', h', P⟩ := C86_packaged feats
      rw [h] at h'
      cases h'
      exact (P.stemWords _ hx).1 rfl

end Props
