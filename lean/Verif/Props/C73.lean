import Verif.Proofs.ChatPos2
import Verif.Props.C72
/-! C73: ChatPOSExtractor.extract: the parts of the result. `withJosas josas s` is the extractor after the particles of josa_chat.txt
    replaced its own. -/
namespace Props
open Py PosSpec NewsPos

theorem chat_words {s s' : State} {t : WordTags} {f : Found} {ca cv : Str → Option (List (Str × Str))} {R : Dict Str Nat}
    (C : Chat s s' t f ca cv R) (w : Str) :
    (In t.adjective w ↔ In f.adjectives w) ∧ (In t.verb w ↔ In f.verbs w) ∧ (In t.adverb w ↔ In s.eojeols w ∧ w ∈ s.adverbs) ∧
    (In t.confusedNouns w ↔ In f.nouns w ∧ (Dict.has f.adjectives w || Dict.has f.verbs w || Dict.has f.adverbs w || phrase f w) = true) ∧
    (In t.noun w ↔ In f.nouns w ∧ ¬ In t.confusedNouns w) := by
  refine ⟨by rw [C.tA, In, keys_asPredicator C.facts.inv.wfA], by rw [C.tV, In, keys_asPredicator C.facts.inv.wfV], ?_, ?_, ?_⟩
  · rw [C.tB, In, mem_keys_filter _ (fun w => s.adverbs.contains w), List.contains_iff_mem]
  · have h1 : In t.confusedNouns w ↔ (Dict.get? t.confusedNouns w).isSome = true := (Dict.isSome_get?_iff _ _).symm
    have h2 : In f.nouns w ↔ (Dict.get? f.nouns w).isSome = true := (Dict.isSome_get?_iff _ _).symm
    rw [h1, h2, C.tC w]
    split
    · rename_i h; simp [h]
    · rename_i h; simp [h]
  · rw [C.tN, In, mem_keys_filter _ (fun w => !Dict.has t.confusedNouns w)]
    simp only [Bool.not_eq_true', has_eq_false]

/-- `w` has more than two characters and ends with a returned adjective or verb or an attested particle, after at least one character -/
def Phrase (s : State) (t : WordTags) (w : Str) : Prop :=
  2 < w.length ∧ ∃ l r, w = l ++ r ∧ l ≠ [] ∧ r ≠ [] ∧ (AttestedJosa s r ∨ In t.adjective r ∨ In t.verb r)

theorem phrase_spec {s s' : State} {t : WordTags} {f : Found} {ca cv : Str → Option (List (Str × Str))} {R : Dict Str Nat}
    (C : Chat s s' t f ca cv R) (w : Str) : phrase f w = true ↔ Phrase s t w := by
  rw [phrase_iff]
  unfold Phrase
  refine and_congr_right fun _ => exists_congr fun l => exists_congr fun r => and_congr_right fun _ => and_congr_right fun _ => and_congr_right fun _ => ?_
  rw [(chat_words C r).1, (chat_words C r).2.1, ← attested_iff, ← C.facts.keysJ]

private theorem or4 {a b c d : Prop} : (((a ∨ b) ∨ c) ∨ d) ↔ (a ∨ b ∨ c ∨ d) := by tauto

/-- C73 (a): nouns and confused nouns are disjoint; a noun is confused exactly if it is also a returned adjective, verb or adverb or a longer word
    that ends with a recognised word -/
theorem C73_disjoint {josas : List Str} {s s' : State} {t : WordTags} (hE : WordLike s.eojeols) (h : chatExtract josas s = .ok (s', t)) (w : Str)
    (hw : In t.noun w ∨ In t.confusedNouns w) :
    (In t.confusedNouns w ↔ In t.adjective w ∨ In t.verb w ∨ In t.adverb w ∨ Phrase (withJosas josas s) t w) ∧
    (In t.noun w ↔ ¬ In t.confusedNouns w) := by
  obtain ⟨f, ca, cv, R, C⟩ := extract_chat hE.1 h
  obtain ⟨hA, hV, hB, hC, hN⟩ := chat_words C w
  have hf : In f.nouns w := by rcases hw with hw | hw; exacts [(hN.1 hw).1, (hC.1 hw).1]
  have hfB : Dict.has f.adverbs w = true ↔ In t.adverb w := by rw [has_iff, C.facts.adverbs, C.tB]
  constructor
  · rw [hC, Bool.or_eq_true, Bool.or_eq_true, Bool.or_eq_true, hfB, has_iff, has_iff, phrase_spec C, hA, hV, or4]
    exact ⟨fun x => x.2, fun x => ⟨hf, x⟩⟩
  · rw [hN]; exact ⟨fun x => x.2, fun x => ⟨hf, x⟩⟩

/-- C73 (b): the nouns and confused nouns are exactly the known nouns that occur alone and the single characters in front of a recognised
    word in an eojeol that has no other reading; there are no compounds -/
theorem C73_noun {josas : List Str} {s s' : State} {t : WordTags} (hE : WordLike s.eojeols) (h : chatExtract josas s = .ok (s', t)) (w : Str) :
    In t.noun w ∨ In t.confusedNouns w ↔ Standing s w ∨
      ∃ c r, w = [c] ∧ In s.eojeols (c :: r) ∧ ¬ Known s (c :: r) ∧ (¬ ∃ a b, Reads (Standing s) (Ending (withJosas josas s)) (c :: r) a b) ∧
        ¬ In t.adjective (c :: r) ∧ ¬ In t.verb (c :: r) ∧ (In t.adjective r ∨ In t.verb r ∨ AttestedJosa (withJosas josas s) r) := by
  obtain ⟨f, ca, cv, R, C⟩ := extract_chat hE.1 h
  obtain ⟨_, _, _, hC, hN⟩ := chat_words C w
  have h1 : In t.noun w ∨ In t.confusedNouns w ↔ In f.nouns w := by
    rw [hN]
    constructor
    · rintro (h | h); exacts [h.1, (hC.1 h).1]
    · intro h'
      by_cases hc : In t.confusedNouns w
      · exact Or.inr hc
      · exact Or.inl ⟨h', hc⟩
  rw [h1, In, C.facts.keysN]
  refine or_congr Iff.rfl ?_
  constructor
  · rintro ⟨e, hf, hA, hV, hsyl, rfl⟩
    obtain ⟨hin, hkn, hrd⟩ := free_iff.1 hf
    cases e with
    | nil => exact absurd rfl (hE.2 _ hin).1
    | cons c r =>
      obtain ⟨rA, rV, _⟩ := chat_words C r
      refine ⟨c, r, rfl, hin, hkn, hrd, by rw [(chat_words C _).1]; exact hA, by rw [(chat_words C _).2.1]; exact hV, ?_⟩
      unfold sylRead at hsyl
      simp only [Bool.or_eq_true, has_iff, List.drop_one, List.tail_cons] at hsyl
      rw [rA, rV, ← attested_iff, ← C.facts.keysJ]
      exact or_assoc.1 hsyl
  · rintro ⟨c, r, rfl, hin, hkn, hrd, hA, hV, hr⟩
    obtain ⟨rA, rV, _⟩ := chat_words C r
    refine ⟨c :: r, free_iff.2 ⟨hin, hkn, hrd⟩, by rwa [(chat_words C _).1] at hA, by rwa [(chat_words C _).2.1] at hV, ?_, rfl⟩
    unfold sylRead
    simp only [Bool.or_eq_true, has_iff, List.drop_one, List.tail_cons]
    rw [rA, rV, ← attested_iff, ← C.facts.keysJ] at hr
    exact or_assoc.2 hr

/-- C73 (c): an eojeol is reported as irrecognizable, with its frequency, exactly if it has at least two characters, is no known word, no particle
    of the chat list and no returned ending, not noun + ending, not a returned adjective or verb, and not one character + recognised word -/
theorem C73_irrecognizable {josas : List Str} {s s' : State} {t : WordTags} (hE : WordLike s.eojeols) (h : chatExtract josas s = .ok (s', t)) (w : Str) (n : Nat) :
    (w, n) ∈ t.irrecognizable ↔ (w, n) ∈ s.eojeols ∧ 2 ≤ w.length ∧ ¬ Known s w ∧ w ∉ josas ∧ w ∉ t.eomi ∧
      (¬ ∃ l r, Reads (Standing s) (Ending (withJosas josas s)) w l r) ∧ ¬ In t.adjective w ∧ ¬ In t.verb w ∧
      ¬ In t.adjective (w.drop 1) ∧ ¬ In t.verb (w.drop 1) ∧ ¬ AttestedJosa (withJosas josas s) (w.drop 1) := by
  obtain ⟨f, ca, cv, R, C⟩ := extract_chat hE.1 h
  obtain ⟨hA, hV, _⟩ := chat_words C w
  obtain ⟨rA, rV, _⟩ := chat_words C (w.drop 1)
  have hmem : (w, n) ∈ f.eojeols ↔ (w, n) ∈ s.eojeols ∧ w ∈ Dict.keys f.eojeols := by
    have : (w, n) ∈ f.eojeols ↔ (w, n) ∈ (withJosas josas s).eojeols.filter (fun e => Dict.has f.eojeols e.1) := by rw [← C.facts.inv.sub]
    rw [this, List.mem_filter, has_iff]; rfl
  rw [C.tI, hmem, C.facts.eoj, hA, hV, rA, rV, ← attested_iff, ← C.facts.keysJ, C.tE]
  refine and_congr_right fun hin => ?_
  have hin' : In s.eojeols w := List.mem_map.2 ⟨_, hin, rfl⟩
  obtain ⟨hne, _⟩ := hE.2 w hin'
  have hlen : w.length = 1 ↔ ¬ 2 ≤ w.length := by have := List.length_pos_iff.2 hne; omega
  have hj : s'.josas = josas := C.josas
  have hirr : irregular s' w = false ↔ w ∉ josas ∧ w ∉ s'.eomis ∧ 2 ≤ w.length := by
    unfold irregular
    rw [Bool.or_eq_false_iff, Bool.or_eq_false_iff, decide_eq_false_iff_not, hlen, not_not, hj, ← Bool.not_eq_true, ← Bool.not_eq_true,
      List.contains_iff_mem, List.contains_iff_mem, and_assoc]
  have hsyl : sylRead f w = false ↔ ¬ In f.adjectives (w.drop 1) ∧ ¬ In f.verbs (w.drop 1) ∧ ¬ In f.josas (w.drop 1) := by
    unfold sylRead
    rw [Bool.or_eq_false_iff, Bool.or_eq_false_iff, has_eq_false, has_eq_false, has_eq_false, and_assoc]
  rw [hirr, hsyl, free_iff]
  have hk : Known (withJosas josas s) w ↔ Known s w := Iff.rfl
  have hst : Standing (withJosas josas s) = Standing s := rfl
  rw [hk, hst]
  have hin2 : In (withJosas josas s).eojeols w := hin'
  constructor
  · rintro ⟨⟨_, h1, h2⟩, h3, h4, ⟨h5, h6, h7⟩, h8, h9, h10⟩
    exact ⟨h10, h1, h8, h9, h2, h3, h4, h5, h6, h7⟩
  · rintro ⟨h10, h1, h8, h9, h2, h3, h4, h5, h6, h7⟩
    exact ⟨⟨hin2, h1, h2⟩, h3, h4, ⟨h5, h6, h7⟩, h8, h9, h10⟩

/-- an example with words of every kind -/
def demoChat : State :=
  ⟨["학교".toList, "대학".toList, "학교가".toList], demoPos.adjectives, demoPos.verbs ++ [("먹ㅋ".toList, (1, [("먹".toList, "ㅋ".toList)]))],
   demoPos.adjectiveStems, demoPos.verbStems, demoPos.eomis ++ ["ㅋ".toList], demoPos.josas, demoPos.adverbs,
   [("학교".toList, 5), ("대학".toList, 2), ("학교가".toList, 3), ("학교가다".toList, 1), ("가다".toList, 4), ("예쁘고".toList, 2),
    ("매우".toList, 3), ("나가다".toList, 2), ("뷁뷁뷁".toList, 1), ("가다먹다".toList, 7), ("먹다먹ㅋ".toList, 2), ("먹ㅋ".toList, 2), ("대학가".toList, 1)]⟩

theorem demoChat_wordLike : WordLike demoChat.eojeols := by
  refine ⟨by unfold Dict.WF; decide +kernel, ?_⟩
  have : ∀ w ∈ Dict.keys demoChat.eojeols, w ≠ [] ∧ ∀ c ∈ w, isSpace c = false := by decide +kernel
  exact this

def demoChatJosas : List Str := ["가".toList, "는".toList, "에서".toList]

/-- the hypotheses are met -/
example : ∃ s' t, chatExtract demoChatJosas demoChat = .ok (s', t) ∧ In t.noun "나".toList ∧ In t.adjective "예쁘고".toList ∧
    In t.adverb "매우".toList ∧ ("뷁뷁뷁".toList, 1) ∈ t.irrecognizable := by
  have h : (match chatExtract demoChatJosas demoChat with
    | .ok (_, t) => decide ("나".toList ∈ Dict.keys t.noun ∧ "예쁘고".toList ∈ Dict.keys t.adjective ∧ "매우".toList ∈ Dict.keys t.adverb ∧
        ("뷁뷁뷁".toList, 1) ∈ t.irrecognizable)
    | .error _ => false) = true := by decide +kernel
  cases he : chatExtract demoChatJosas demoChat with
  | error e => rw [he] at h; cases h
  | ok x =>
    rw [he] at h
    exact ⟨x.1, x.2, rfl, of_decide_eq_true h⟩

end Props
