import Verif.Props.C40
import Verif.Props.C40Exact
/-! C115: adding words to the dictionary of a tagger -/
namespace Props
open Py PT

/-- `d'` knows every word of `d` under the same tags, and its `max_length` is not smaller -/
structure Knows (d d' : PT.State) : Prop where
  words : ∀ w t, d.wordIsTag w t = true → d'.wordIsTag w t = true
  longer : d.maxLength ≤ d'.maxLength

private theorem getPos_iff (d : PT.State) (w t : Str) : t ∈ d.getPos w ↔ d.wordIsTag w t = true := by
  unfold State.getPos State.wordIsTag
  rw [List.mem_map, decide_eq_true_iff]
  constructor
  · rintro ⟨e, he, rfl⟩
    exact of_decide_eq_true (List.mem_filter.1 he).2
  · intro h
    have hk : ∃ r, Dict.get? d.pos t = some r := by
      unfold State.wordsOf at h
      cases hr : Dict.get? d.pos t with
      | none => rw [hr] at h; cases h
      | some r => exact ⟨r, rfl⟩
    obtain ⟨r, hr⟩ := hk
    exact ⟨(t, r), List.mem_filter.2 ⟨Dict.mem_of_get? hr, decide_eq_true h⟩, rfl⟩

/-- C115 (h): the candidates of the left-right matcher only become more when words are added -/
theorem C115_lr_candidates (g g' : LRMatcher) (hk : Knows g.dictionary g'.dictionary) (hl : g'.ltags = g.ltags) (ht : g'.templates = g.templates)
    (ho : ∀ l t, t ∈ g.ord l ↔ t ∈ l) (ho' : ∀ l t, t ∈ g'.ord l ↔ t ∈ l) (text : Str) : ∀ c ∈ g.generate text, c ∈ g'.generate text := by
  intro c hc
  unfold LRMatcher.generate at hc ⊢
  rw [mem_sorted, List.mem_flatMap] at hc ⊢
  obtain ⟨i, hi, hc⟩ := hc
  refine ⟨i, ?_, ?_⟩
  · unfold initializeL at hi ⊢
    rw [mem_sorted, List.mem_flatMap] at hi ⊢
    obtain ⟨b, hb, hi⟩ := hi
    refine ⟨b, hb, ?_⟩
    rw [List.mem_flatMap] at hi ⊢
    obtain ⟨e, he, hi⟩ := hi
    refine ⟨e, ?_, ?_⟩
    · rw [List.mem_range'_1] at he ⊢
      have := hk.longer
      omega
    · rw [List.mem_map] at hi ⊢
      obtain ⟨tag, htag, rfl⟩ := hi
      refine ⟨tag, ?_, rfl⟩
      unfold posL at htag ⊢
      rw [ho, List.mem_filter, getPos_iff] at htag
      rw [ho', List.mem_filter, getPos_iff, hl]
      exact ⟨hk.words _ _ htag.1, htag.2⟩
  · unfold expandOne at hc ⊢
    rw [List.mem_flatMap] at hc ⊢
    obtain ⟨e, he, hc⟩ := hc
    refine ⟨e, ?_, ?_⟩
    · rw [List.mem_range'_1] at he ⊢
      have := hk.longer
      omega
    · by_cases h0 : slice text i.2.2.2 e = []
      · rw [if_pos h0] at hc ⊢; exact hc
      · rw [if_neg h0, List.mem_map] at hc ⊢
        obtain ⟨rt, hrt, hc⟩ := hc
        refine ⟨rt, ?_, hc⟩
        rw [List.mem_filter] at hrt ⊢
        rw [ht]
        exact ⟨hrt.1, hk.words _ _ hrt.2⟩

private theorem placed_length (tag : Str) (b : Nat) (ws : List Str) : (placed tag b ws).length = ws.length := by
  induction ws generalizing b with
  | nil => rfl
  | cons w ws ih => rw [placed, List.length_cons, List.length_cons, ih]

/-- C115 (i): of the candidates of the eojeol matcher, those that consist of one entry with a tag (the whole eojeol, or a left and a right part) stay -/
theorem C115_eojeol_candidates (g g' : EojeolMatcher) (hd : DReach g.dictionary) (hd' : DReach g'.dictionary) (hk : Knows g.dictionary g'.dictionary)
    (hs : g'.singleTags = g.singleTags) (ht : g'.lrTemplates = g.lrTemplates) (eojeol : Str) :
    ∀ x : LR, x.lTag ≠ none → [x] ∈ g.generate eojeol → [x] ∈ g'.generate eojeol := by
  intro x hx h
  obtain ⟨whole, prs, noun, adverb, h0, h1, h2, -, h4, h5, -, -⟩ := C40_exact g hd eojeol
  obtain ⟨c1, c2⟩ := C40_complete g' hd' eojeol
  have hno : ∀ tag ws, 2 ≤ ws.length → [x] ≠ placed tag 0 ws := by
    intro tag ws hl he
    have := congrArg List.length he
    rw [placed_length, List.length_singleton] at this
    omega
  rw [h0] at h
  rcases List.mem_append.1 h with h | h
  · rcases List.mem_append.1 h with h | h
    · rcases List.mem_append.1 h with h | h
      · rcases h1 with ⟨rfl, -⟩ | ⟨rfl, -⟩
        · obtain ⟨t, ht', hxt⟩ := List.mem_map.1 h
          obtain ⟨q1, q2⟩ := List.mem_filter.1 ht'
          rw [← hxt]
          exact c1 t (by rw [hs]; exact of_decide_eq_true q2) (hk.words _ _ ((mem_getPos hd).1 q1))
        · cases List.mem_singleton.1 h
          exact absurd rfl hx
      · obtain ⟨l, r, lt, rt, q1, q2, q3, q4, q5, q6, q7⟩ := (h2 _).1 h
        rw [q7]
        exact c2 l r lt rt q1 q2 q3 (by rw [ht]; exact q4) (hk.words _ _ q5) (hk.words _ _ q6)
    · obtain ⟨ws, -, q2, q3⟩ := (h4 _).1 h
      exact absurd q3 (hno _ ws q2)
  · obtain ⟨ws, -, q2, q3⟩ := (h5 _).1 h
    exact absurd q3 (hno _ ws q2)

/-- a dictionary with the nouns `ns` and nothing else -/
def nounsOnly (ns : List Str) : PT.State := ⟨[("Noun".toList, 0)], [.set ns], 2⟩

/-- C115 (j): but compounds do not stay: adding the noun `서` to the dictionary of `서울` and `대학` turns the tagged eojeol `서울대학` into an unknown word -/
theorem C115_compound_lost :
    DReach (nounsOnly ["서울".toList, "대학".toList]) ∧ DReach (nounsOnly ["서울".toList, "대학".toList, "서".toList]) ∧
    Knows (nounsOnly ["서울".toList, "대학".toList]) (nounsOnly ["서울".toList, "대학".toList, "서".toList]) ∧
    tagFlat (fun e => selectBest (evaluateEojeol {}) (EojeolMatcher.generate { dictionary := nounsOnly ["서울".toList, "대학".toList] } e)) none "서울대학".toList =
      .ok [("서울".toList, some "Noun".toList), ("대학".toList, some "Noun".toList)] ∧
    tagFlat (fun e => selectBest (evaluateEojeol {}) (EojeolMatcher.generate { dictionary := nounsOnly ["서울".toList, "대학".toList, "서".toList] } e)) none "서울대학".toList =
      .ok [("서울대학".toList, none)] := by
  refine ⟨.create [("Noun".toList, ["서울".toList, "대학".toList])] _ (by unfold Dict.WF; decide) rfl,
    .create [("Noun".toList, ["서울".toList, "대학".toList, "서".toList])] _ (by unfold Dict.WF; decide) rfl, ⟨fun w t h => ?_, Nat.le_refl _⟩, by decide +kernel, by decide +kernel⟩
  unfold State.wordIsTag State.wordsOf nounsOnly at h ⊢
  dsimp only at h ⊢
  cases hg : Dict.get? [("Noun".toList, 0)] t with
  | none => rw [hg] at h; exact absurd (of_decide_eq_true h) List.not_mem_nil
  | some r =>
    rw [hg] at h
    cases r with
    | zero =>
      have h : w ∈ ["서울".toList, "대학".toList] := of_decide_eq_true h
      exact decide_eq_true (List.mem_append_left ["서".toList] h)
    | succ r => exact absurd (of_decide_eq_true h) List.not_mem_nil

end Props
