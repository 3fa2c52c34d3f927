import Verif.Model.NounTokenizer
import Verif.Spec.NounChain
import Verif.Proofs.MaxScore
import Verif.Proofs.Text
import Mathlib.Data.List.Forall2
import Mathlib.Data.List.Chain
/-! C18, C19: the noun tokenizers. -/
namespace Props
open Py Spec NounTok

private theorem candLe_totalPre : TotalPre candLe := by
  refine ⟨fun a b c h1 h2 => ?_, fun a b => ?_⟩
  · simp only [candLe, decide_eq_true_eq] at *; omega
  · simp only [candLe, decide_eq_true_eq] at *; omega

private theorem mem_lcands (isNoun : Str → Bool) (token : Str) (c : Cand) :
    c ∈ lcands isNoun token ↔ c.2.1 < token.length ∧ c.2.1 + c.2.2 ≤ token.length ∧ c.1 = slice token c.2.1 (c.2.1 + c.2.2) ∧
      isNoun c.1 = true := by
  obtain ⟨w, b, k⟩ := c
  simp only [lcands, List.mem_flatMap, List.mem_range, List.mem_filterMap, List.mem_range'_1]
  constructor
  · rintro ⟨b', hb', e, he, h⟩
    split at h
    · rename_i hn
      simp only [Option.some.injEq, Prod.mk.injEq] at h
      obtain ⟨rfl, rfl, rfl⟩ := h
      have : b' + (e - b') = e := by omega
      rw [this]
      exact ⟨hb', by omega, rfl, hn⟩
    · cases h
  · rintro ⟨h1, h2, h3, h4⟩
    refine ⟨b, h1, b + k, by omega, ?_⟩
    rw [← h3, if_pos h4]
    simp

private theorem slice_eq_take_drop (s : Str) (b k : Nat) : slice s b (b + k) = (s.drop b).take k := by
  unfold slice; rw [List.drop_take]; congr 1; omega

/-- the invariant of the loop -/
private structure LInv (isNoun : Str → Bool) (token : Str) (e : Nat) (N : List Cand) : Prop where
  le : e ≤ token.length
  sub : ∀ c ∈ N, c ∈ lcands isNoun token ∧ e ≤ c.2.1
  all : ∀ c ∈ lcands isNoun token, e ≤ c.2.1 → 0 < c.2.2 → c ∈ N
  sorted : N.Pairwise (fun a b => candLe a b = true)

private theorem lloop_chain (isNoun : Str → Bool) (token : Str) (k : Nat) : ∀ (e : Nat) (N : List Cand), N.length ≤ k →
    LInv isNoun token e N → NounChain isNoun (token.drop e) ((lloop k e N).filter (fun t => t ≠ [])) := by
  -- a non-empty noun at `e` is a candidate
  have cand : ∀ e m, e ≤ token.length → isNoun m = true → m <+: token.drop e → m ≠ [] →
      (m, e, m.length) ∈ lcands isNoun token ∧ 0 < m.length := by
    intro e m he hm hp hne
    have hpos : 0 < m.length := List.length_pos_iff.2 hne
    have hl := hp.length_le
    rw [List.length_drop] at hl
    refine ⟨(mem_lcands isNoun token _).2 ⟨by simp only; omega, by simp only; omega, ?_, hm⟩, hpos⟩
    simp only
    rw [slice_eq_take_drop]
    exact List.prefix_iff_eq_take.1 hp
  induction k with
  | zero =>
    intro e N hN hI
    have : N = [] := List.length_eq_zero_iff.1 (by omega)
    subst this
    simp only [lloop]
    refine .stop fun m hm hp => ?_
    by_cases hne : m = []
    · exact hne
    · obtain ⟨h1, h2⟩ := cand e m hI.le hm hp hne
      exact absurd (hI.all _ h1 (Nat.le_refl _) h2) (by simp)
  | succ k ih =>
    intro e N hN hI
    cases N with
    | nil =>
      simp only [lloop]
      refine .stop fun m hm hp => ?_
      by_cases hne : m = []
      · exact hne
      · obtain ⟨h1, h2⟩ := cand e m hI.le hm hp hne
        exact absurd (hI.all _ h1 (Nat.le_refl _) h2) (by simp)
    | cons c rest =>
      obtain ⟨noun, b, len⟩ := c
      have hhead : ∀ d ∈ (noun, b, len) :: rest, candLe (noun, b, len) d = true := by
        intro d hd
        rcases List.mem_cons.1 hd with rfl | hd
        · simp [candLe]
        · exact List.rel_of_pairwise_cons hI.sorted hd
      have hb := (hI.sub _ (List.mem_cons_self)).2
      simp only at hb
      obtain ⟨hc1, hc2, hc3, hc4⟩ := (mem_lcands isNoun token _).1 (hI.sub _ (List.mem_cons_self)).1
      simp only at hc1 hc2 hc3 hc4
      simp only [lloop]
      by_cases hbe : b = e
      · subst hbe
        simp only [ne_eq, not_true_eq_false, if_false]
        have hI' : LInv isNoun token (b + len) (rest.filter (fun c => decide (c.2.1 ≥ b + len))) := by
          refine ⟨hc2, ?_, ?_, ?_⟩
          · intro d hd
            obtain ⟨h1, h2⟩ := List.mem_filter.1 hd
            exact ⟨(hI.sub d (List.mem_cons_of_mem _ h1)).1, by simpa using h2⟩
          · intro d hd hle hpos
            have := hI.all d hd (by omega) hpos
            rcases List.mem_cons.1 this with rfl | this
            · simp only at hle hpos; omega
            · exact List.mem_filter.2 ⟨this, by simpa using hle⟩
          · exact (List.Pairwise.of_cons hI.sorted).filter _
        have hlen : (rest.filter (fun c => decide (c.2.1 ≥ b + len))).length ≤ k := by
          have := List.length_filter_le (fun c : Cand => decide (c.2.1 ≥ b + len)) rest
          simp only [List.length_cons] at hN; omega
        have hrec := ih _ _ hlen hI'
        have hw : token.drop b = noun ++ token.drop (b + len) := by
          rw [hc3, slice_eq_take_drop, ← List.drop_drop, List.take_append_drop]
        by_cases hl0 : len = 0
        · subst hl0
          have : noun = [] := by rw [hc3, slice_eq_take_drop]; rfl
          subst this
          rw [hw]
          simpa using hrec
        · have hnl : noun.length = len := by
            rw [hc3, slice_eq_take_drop, List.length_take, List.length_drop]; omega
          have hne : noun ≠ [] := by intro h0; rw [h0] at hnl; simp at hnl; omega
          rw [List.filter_cons_of_pos (by simpa using hne)]
          rw [hw]
          refine .take ⟨hc4, hne, List.prefix_append _ _, ?_⟩ hrec
          intro m hm hp
          by_cases hm0 : m = []
          · subst hm0; simp
          · rw [← hw] at hp
            obtain ⟨h1, h2⟩ := cand b m (by omega) hm hp hm0
            have h3 := hhead _ (hI.all _ h1 (Nat.le_refl _) h2)
            simp only [candLe, decide_eq_true_eq] at h3
            omega
      · simp only [ne_eq, hbe, not_false_eq_true, if_true]
        refine .stop fun m hm hp => ?_
        by_cases hne : m = []
        · exact hne
        · obtain ⟨h1, h2⟩ := cand e m hI.le hm hp hne
          have h3 := hhead _ (hI.all _ h1 (Nat.le_refl _) h2)
          simp only [candLe, decide_eq_true_eq] at h3
          omega

private theorem chain_of_token (isNoun : Str → Bool) (token : Str) :
    NounChain isNoun token ((maxLengthLTokenize isNoun token).1.filter (fun t => t ≠ [])) := by
  have := lloop_chain isNoun token _ 0 (sorted candLe (lcands isNoun token)) (Nat.le_refl _)
    ⟨Nat.zero_le _, fun c hc => ⟨mem_sorted.1 hc, Nat.zero_le _⟩, fun c hc _ _ => mem_sorted.2 hc, pairwise_sorted candLe_totalPre _⟩
  simpa [maxLengthLTokenize] using this

private theorem flatten_filter_ne_nil (l : List Str) : (l.filter (fun t => t ≠ [])).flatten = l.flatten := by
  induction l with
  | nil => rfl
  | cons a l ih =>
    by_cases h : a = []
    · subst h; simpa using ih
    · rw [List.filter_cons_of_pos (by simpa using h), List.flatten_cons, List.flatten_cons, ih]

/-- `NounLMatchTokenizer`: there is one noun chain per eojeol (longest noun from the left until no noun starts), and
    the output is the chains' nouns, or with `compose_compound` the non-empty concatenation of each chain. -/
theorem C18_left_chains (isNoun : List Char → Bool) (sentence : List Char) :
    ∃ chains : List (List (List Char)),
      List.Forall₂ (NounChain isNoun) (splitWs sentence) chains ∧
      tokenizeL isNoun sentence false = chains.flatten ∧
      tokenizeL isNoun sentence true = (chains.map List.flatten).filter (fun t => t ≠ []) := by
  refine ⟨(splitWs sentence).map (fun w => (maxLengthLTokenize isNoun w).1.filter (fun t => t ≠ [])), ?_, ?_, ?_⟩
  · generalize splitWs sentence = ws
    induction ws with
    | nil => exact .nil
    | cons w ws ih => exact .cons (chain_of_token isNoun w) ih
  · simp only [tokenizeL, Bool.false_eq_true, if_false]
    generalize splitWs sentence = ws
    induction ws with
    | nil => rfl
    | cons w ws ih =>
      rw [List.map_cons, List.map_cons, List.flatten_cons, ← ih]
      by_cases h : (maxLengthLTokenize isNoun w).1 = []
      · rw [List.filter_cons_of_neg (by simpa using h), h]; rfl
      · rw [List.filter_cons_of_pos (by simpa using h), List.map_cons, List.flatten_cons, List.filter_append]
  · simp only [tokenizeL, if_true]
    generalize splitWs sentence = ws
    induction ws with
    | nil => rfl
    | cons w ws ih =>
      rw [List.map_cons, List.map_cons, List.map_cons, flatten_filter_ne_nil]
      by_cases h : (maxLengthLTokenize isNoun w).1 = []
      · rw [List.filter_cons_of_neg (by simpa using h), ih, h]; simp
      · rw [List.filter_cons_of_pos (by simpa using h), List.map_cons, List.map_cons, List.filter_cons, List.filter_cons, ih]

private theorem chain_facts (isNoun : Str → Bool) {w : Str} {ns : List Str} (h : NounChain isNoun w ns) :
    ns.flatten <+: w ∧ ∀ n ∈ ns, isNoun n = true ∧ n ≠ [] := by
  induction h with
  | stop _ => simp
  | take h1 _ ih =>
    refine ⟨?_, ?_⟩
    · rw [List.flatten_cons]; exact (List.prefix_append_right_inj _).2 ih.1
    · intro n hn
      rcases List.mem_cons.1 hn with rfl | hn
      · exact ⟨h1.noun, h1.nonempty⟩
      · exact ih.2 n hn

private theorem forall₂_right {α β} {R : α → β → Prop} {l : List α} {m : List β} (h : List.Forall₂ R l m) :
    ∀ y ∈ m, ∃ x ∈ l, R x y := by
  induction h with
  | nil => simp
  | cons h _ ih =>
    intro y hy
    rcases List.mem_cons.1 hy with rfl | hy
    · exact ⟨_, List.mem_cons_self, h⟩
    · obtain ⟨w, hw, h'⟩ := ih y hy
      exact ⟨w, List.mem_cons_of_mem _ hw, h'⟩

/-- ... so without compounding every output word is a noun, and with compounding every output word is a prefix of an
    eojeol of the sentence and a concatenation of nouns. -/
theorem C18_words_are_nouns (isNoun : List Char → Bool) (sentence : List Char) :
    (∀ t ∈ tokenizeL isNoun sentence false, isNoun t = true ∧ t ≠ []) ∧
    (∀ t ∈ tokenizeL isNoun sentence true, (∃ w ∈ splitWs sentence, t <+: w) ∧
      ∃ ns : List (List Char), t = ns.flatten ∧ ∀ n ∈ ns, isNoun n = true) := by
  obtain ⟨chains, h1, h2, h3⟩ := C18_left_chains isNoun sentence
  have hmem := forall₂_right h1
  constructor
  · rw [h2]; intro t ht
    obtain ⟨ch, hch, hm⟩ := List.mem_flatten.1 ht
    obtain ⟨w, _, hw⟩ := hmem ch hch
    exact (chain_facts isNoun hw).2 t hm
  · rw [h3]; intro t ht
    obtain ⟨ch, hch, rfl⟩ := List.mem_map.1 (List.mem_filter.1 ht).1
    obtain ⟨w, hww, hw⟩ := hmem ch hch
    exact ⟨⟨w, hww, (chain_facts isNoun hw).1⟩, ch, rfl, fun n hn => ((chain_facts isNoun hw).2 n hn).1⟩

example : tokenizeL (fun w => ["아이오아이".toList, "아이".toList, "노래".toList, "소리".toList].contains w) "아이오아이노래는 이노래 아이소리".toList false =
    ["아이오아이".toList, "노래".toList, "아이".toList, "소리".toList] := by decide +kernel

/-! ### NounMatchTokenizer -/

private abbrev Touch (a b : MaxScore.Tok) : Prop := a.e = b.b

private structure Good (eo : Str) (l : List MaxScore.Tok) : Prop where
  each : ∀ t ∈ l, t.b < t.e ∧ t.e ≤ eo.length ∧ t.word = slice eo t.b t.e
  order : l.Pairwise (fun c d => c.e ≤ d.b)

private theorem slice_join (s : Str) {a b c : Nat} (h1 : a ≤ b) (h2 : b ≤ c) : slice s a b ++ slice s b c = slice s a c := by
  unfold slice
  have : s.take b = (s.take c).take b := by rw [List.take_take]; congr 1; omega
  rw [this, List.drop_take]
  have : (s.take c).drop b = ((s.take c).drop a).drop (b - a) := by rw [List.drop_drop]; congr 1; omega
  rw [this, List.take_append_drop]

private theorem concat_spec (eo : Str) (W : List MaxScore.Tok) : ∀ (cur : List MaxScore.Tok) (a z : MaxScore.Tok) (b e : Nat) (score : Rat),
    Good eo W → cur.head? = some a → cur.getLast? = some z → a.b = b → z.e = e → cur.IsChain Touch → b < e →
    (cur.map (·.word)).flatten = slice eo b e → e ≤ eo.length → (∀ t ∈ W, e ≤ t.b) →
    ∃ gs, Grouping Touch (cur ++ W) gs ∧ (concatGo eo W b e score).map (·.word) = gs.map (fun g => (g.map (·.word)).flatten) := by
  induction W with
  | nil =>
    intro cur a z b e score _ ha hz hab hze hch hlt hcur hle _
    have hne : cur ≠ [] := by rintro rfl; simp at ha
    refine ⟨[cur], ⟨by simp, by simpa using hne, by simpa using hch, by simp⟩, ?_⟩
    simp [concatGo, hlt, hcur]
  | cons w W ih =>
    intro cur a z b e score hG ha hz hab hze hch hlt hcur hle hW
    have hne : cur ≠ [] := by rintro rfl; simp at ha
    obtain ⟨hw1, hw2, hw3⟩ := hG.each w (by simp)
    have hG' : Good eo W := ⟨fun t ht => hG.each t (by simp [ht]), hG.order.of_cons⟩
    have hW' : ∀ t ∈ W, w.e ≤ t.b := fun t ht => List.rel_of_pairwise_cons hG.order ht
    have hew := hW w (by simp)
    simp only [concatGo]
    by_cases h : e = w.b
    · rw [if_pos h]
      obtain ⟨gs, h1, h2⟩ := ih (cur ++ [w]) a w b w.e (max score w.score) hG'
        (by rw [List.head?_append, ha]; rfl) (by simp) hab rfl
        (by
          rw [List.isChain_append]
          refine ⟨hch, by simp, ?_⟩
          intro x hx y hy
          rw [hz] at hx; simp at hx hy; subst hx; subst hy
          show z.e = w.b; omega)
        (by omega)
        (by
          rw [List.map_append, List.flatten_append, hcur]
          simp only [List.map_cons, List.map_nil, List.flatten_cons, List.flatten_nil, List.append_nil]
          rw [hw3, h]; exact slice_join eo (by omega) (by omega))
        hw2 hW'
      exact ⟨gs, by simpa using h1, h2⟩
    · rw [if_neg h]
      obtain ⟨gs, h1, h2⟩ := ih [w] w w w.b w.e score hG' rfl rfl rfl rfl (by simp) hw1 (by simpa using hw3) hw2 hW'
      refine ⟨cur :: gs, ⟨by rw [List.flatten_cons, h1.flat]; simp, ?_, ?_, ?_⟩, ?_⟩
      · intro g hg; rcases List.mem_cons.1 hg with rfl | hg
        · exact hne
        · exact h1.nonempty g hg
      · intro g hg; rcases List.mem_cons.1 hg with rfl | hg
        · exact hch
        · exact h1.within g hg
      · cases gs with
        | nil => simp
        | cons g gs =>
          rw [List.isChain_cons_cons]
          refine ⟨?_, h1.between⟩
          intro x hx y hy
          have hg := h1.nonempty g (by simp)
          have hflat := h1.flat
          cases g with
          | nil => exact absurd rfl hg
          | cons v g =>
            rw [List.flatten_cons] at hflat
            simp at hflat hy
            obtain ⟨rfl, _⟩ := hflat
            rw [hz] at hx; simp at hx; subst hx; subst hy
            show ¬ z.e = v.b
            omega
      · rw [List.map_cons, List.map_cons, h2, hcur]

private theorem tok_good {eo : Str} {i j : Nat} {l : List MaxScore.Tok} (h : Tiles eo i j (l.map MaxScore.Tok.span)) :
    Good eo l ∧ ∀ t ∈ l, i ≤ t.b := by
  induction l generalizing i with
  | nil => exact ⟨⟨by simp, .nil⟩, by simp⟩
  | cons a l ih =>
    rw [List.map_cons] at h
    obtain ⟨w, b, e, sc, len⟩ := a
    cases h with
    | cons h1 h2 h3 h4 =>
      obtain ⟨g1, g2⟩ := ih h4
      refine ⟨⟨?_, ?_⟩, ?_⟩
      · intro t ht
        rcases List.mem_cons.1 ht with rfl | ht
        · exact ⟨h1, h2, h3⟩
        · exact g1.each t ht
      · exact .cons (fun t ht => g2 t ht) g1.order
      · intro t ht
        rcases List.mem_cons.1 ht with rfl | ht
        · exact Nat.le_refl _
        · have k1 : e ≤ t.b := g2 t ht
          have k2 : b < e := h1
          show b ≤ t.b; omega

private theorem concatenate_spec (eo : Str) (W : List MaxScore.Tok) (hG : Good eo W) :
    ∃ gs, Grouping Touch W gs ∧
      ((concatenate eo W).map (·.word)).filter (fun w => w ≠ []) = gs.map (fun g => (g.map (·.word)).flatten) := by
  cases W with
  | nil => exact ⟨[], ⟨rfl, by simp, by simp, by simp⟩, by simp [concatenate, concatGo]⟩
  | cons w W =>
    obtain ⟨hw1, hw2, hw3⟩ := hG.each w (by simp)
    have hG' : Good eo W := ⟨fun t ht => hG.each t (by simp [ht]), hG.order.of_cons⟩
    have hW' : ∀ t ∈ W, w.e ≤ t.b := fun t ht => List.rel_of_pairwise_cons hG.order ht
    have hwne : w.word ≠ [] := by
      rw [hw3]; intro h0
      have : (slice eo w.b w.e).length = 0 := by rw [h0]; rfl
      simp [slice] at this; omega
    have hgs : ∀ gs, Grouping Touch (w :: W) gs →
        (gs.map (fun g => (g.map (·.word)).flatten)).filter (fun w => w ≠ []) = gs.map (fun g => (g.map (·.word)).flatten) := by
      intro gs h
      rw [List.filter_eq_self]
      intro x hx
      obtain ⟨g, hg, rfl⟩ := List.mem_map.1 hx
      have hne := h.nonempty g hg
      cases g with
      | nil => exact absurd rfl hne
      | cons v g =>
        have hv : v ∈ w :: W := by rw [← h.flat]; exact List.mem_flatten.2 ⟨_, hg, by simp⟩
        obtain ⟨k1, k2, k3⟩ := hG.each v hv
        have : v.word ≠ [] := by
          rw [k3]; intro h0
          have : (slice eo v.b v.e).length = 0 := by rw [h0]; rfl
          simp [slice] at this; omega
        simp [this]
    have step : ∀ score, ∃ gs, Grouping Touch (w :: W) gs ∧
        ((concatGo eo W w.b w.e score).map (·.word)).filter (fun w => w ≠ []) = gs.map (fun g => (g.map (·.word)).flatten) := by
      intro score
      obtain ⟨gs, h1, h2⟩ := concat_spec eo W [w] w w w.b w.e score hG' rfl rfl rfl rfl (by simp) hw1 (by simpa using hw3) hw2 hW'
      exact ⟨gs, h1, by rw [h2]; exact hgs gs h1⟩
    unfold concatenate
    simp only [concatGo]
    by_cases h : 0 = w.b
    · rw [if_pos h]
      have := step (max 0 w.score)
      rw [← h] at this
      exact this
    · rw [if_neg h]
      have e : slice eo 0 0 = [] := by simp [slice]
      rw [List.map_cons, e, List.filter_cons_of_neg (by simp)]
      exact step 0

theorem word_self {w : Str} (h : w ≠ [] ∧ ∀ c ∈ w, isSpace c = false) : splitWs w = [w] ∧ strip w = w := by
  constructor
  · have := splitWs_join [w] (by intro x hx; simp at hx; subst hx; exact h)
    simpa [join] using this
  · have : lstrip w = w := by
      cases w with
      | nil => rfl
      | cons c w => simp [lstrip, h.2 c (by simp)]
    unfold strip
    rw [this]
    exact rstrip_eq_self (fun c hc => h.2 c (List.mem_of_getLast? hc))

private theorem tok_tiles (scores : Dict Str Rat) (w : Str) (hne : w ≠ []) :
    ∃ toks, MaxScore.recursiveTokenize scores 10 0 w = .ok toks ∧ Tiles w 0 w.length (toks.map MaxScore.Tok.span) := by
  by_cases h : w.length ≤ 2
  · refine ⟨_, by simp [MaxScore.recursiveTokenize, h]; rfl, ?_⟩
    exact .cons (List.length_pos_iff.2 hne) (Nat.le_refl _) (by simp) (.nil _)
  · obtain ⟨toks, h1, h2, _⟩ := MaxScore.recursive_spec scores 10 (by omega) 0 w (by omega)
    exact ⟨toks, h1, h2⟩

/-- `NounMatchTokenizer`: the sentence is tokenised by `MaxScoreTokenizer`; without compounding the output is its
    tokens with a positive score, in order; with compounding it is the concatenations of the maximal groups of
    touching such tokens of each eojeol, in order. -/
theorem C19_positive_groups (scores : Dict Str Rat) (sentence : List Char) :
    ∃ toks : List (List MaxScore.Tok), MaxScore.tokenizeSpans scores 10 0 sentence = .ok toks ∧
      matchTokenize scores sentence false =
        .ok ((toks.flatten.filter (fun t => decide (0 < t.score))).map (·.word)) ∧
      ∃ gss : List (List (List MaxScore.Tok)),
        List.Forall₂ (Grouping (fun a b => a.e = b.b)) (toks.map (fun ts => ts.filter (fun t => decide (0 < t.score)))) gss ∧
        matchTokenize scores sentence true = .ok (gss.flatten.map (fun g => (g.map (·.word)).flatten)) := by
  have hsrc : ((splitWs sentence).map strip).filter (fun e => e ≠ []) = splitWs sentence := by
    have hw := splitWs_words sentence
    generalize splitWs sentence = ws at hw
    induction ws with
    | nil => rfl
    | cons w ws ih =>
      rw [List.map_cons, (word_self (hw w (by simp))).2, List.filter_cons_of_pos (by simpa using (hw w (by simp)).1),
        ih (fun x hx => hw x (by simp [hx]))]
  have key : ∀ ws : List Str, (∀ w ∈ ws, w ≠ [] ∧ ∀ c ∈ w, isSpace c = false) →
      ∃ toks : List (List MaxScore.Tok), ws.mapM (MaxScore.recursiveTokenize scores 10 0) = .ok toks ∧
        (∃ out, ws.mapM (matchEojeol scores false) = .ok out ∧
          (out.flatten.map (·.word)).filter (fun w => w ≠ []) = (toks.flatten.filter (fun t => decide (0 < t.score))).map (·.word)) ∧
        ∃ gss : List (List (List MaxScore.Tok)),
          List.Forall₂ (Grouping Touch) (toks.map (fun ts => ts.filter (fun t => decide (0 < t.score)))) gss ∧
          ∃ out, ws.mapM (matchEojeol scores true) = .ok out ∧
            (out.flatten.map (·.word)).filter (fun w => w ≠ []) = gss.flatten.map (fun g => (g.map (·.word)).flatten) := by
    intro ws
    induction ws with
    | nil => intro _; exact ⟨[], rfl, ⟨[], rfl, rfl⟩, [], .nil, [], rfl, rfl⟩
    | cons w ws ih =>
      intro hw
      obtain ⟨toks, h1, ⟨out1, h2, h3⟩, gss, h4, out2, h5, h6⟩ := ih (fun x hx => hw x (by simp [hx]))
      obtain ⟨ts, t1, t2⟩ := tok_tiles scores w (hw w (by simp)).1
      obtain ⟨hG, _⟩ := tok_good t2
      have hGf : Good w (ts.filter (fun t => decide (0 < t.score))) :=
        ⟨fun t ht => hG.each t (List.mem_filter.1 ht).1, hG.order.filter _⟩
      obtain ⟨gs, g1, g2⟩ := concatenate_spec w _ hGf
      have hm : ∀ cc, matchEojeol scores cc w = .ok (if cc then concatenate w (ts.filter (fun t => decide (0 < t.score)))
          else ts.filter (fun t => decide (0 < t.score))) := by
        intro cc
        simp [matchEojeol, MaxScore.tokenizeSpans, (word_self (hw w (by simp))).1, t1, List.mapM_cons, bind, Except.bind, pure, Except.pure, getItem]
      refine ⟨ts :: toks, ?_, ⟨ts.filter (fun t => decide (0 < t.score)) :: out1, ?_, ?_⟩, gs :: gss, ?_,
        concatenate w (ts.filter (fun t => decide (0 < t.score))) :: out2, ?_, ?_⟩
      · simp [List.mapM_cons, t1, h1, bind, Except.bind, pure, Except.pure]
      · simp [List.mapM_cons, hm, h2, bind, Except.bind, pure, Except.pure]
      · rw [List.flatten_cons, List.map_append, List.filter_append, h3, List.flatten_cons, List.filter_append, List.map_append]
        congr 1
        rw [List.filter_eq_self]
        intro x hx
        obtain ⟨t, ht, rfl⟩ := List.mem_map.1 hx
        obtain ⟨k1, k2, k3⟩ := hGf.each t ht
        have : t.word ≠ [] := by
          rw [k3]; intro h0
          have : (slice w t.b t.e).length = 0 := by rw [h0]; rfl
          simp [slice] at this; omega
        simpa using this
      · rw [List.map_cons]; exact .cons g1 h4
      · simp [List.mapM_cons, hm, h5, bind, Except.bind, pure, Except.pure]
      · rw [List.flatten_cons, List.map_append, List.filter_append, h6, List.flatten_cons, List.map_append, g2]
  obtain ⟨toks, h1, ⟨out1, h2, h3⟩, gss, h4, out2, h5, h6⟩ := key _ (splitWs_words sentence)
  refine ⟨toks, h1, ?_, gss, h4, ?_⟩
  · unfold matchTokenize matchSpans
    rw [hsrc, h2]
    simp only [bind, Except.bind]
    rw [h3]
  · unfold matchTokenize matchSpans
    rw [hsrc, h5]
    simp only [bind, Except.bind]
    rw [h6]

private def sampleScores : Dict Str Rat := [("아이오아이".toList, 1), ("노래".toList, 3/4), ("네이버".toList, 1/2)]

example : matchTokenize sampleScores "아이오아이노래는 네이버다".toList true = .ok ["아이오아이노래".toList, "네이버".toList] ∧
    matchTokenize sampleScores "아이오아이노래는 네이버다".toList false = .ok ["아이오아이".toList, "노래".toList, "네이버".toList] := by
  decide +kernel

/-- An eojeol of one or two characters never yields a noun, whatever its score. -/
theorem C52_short_nouns_lost_violated (scores : Dict Str Rat) (w : List Char) (hw : w ≠ []) (hl : w.length ≤ 2)
    (hs : ∀ c ∈ w, isSpace c = false) (cc : Bool) : matchTokenize scores w cc = .ok [] := by
  have h := word_self ⟨hw, hs⟩
  cases cc <;>
  simp [matchTokenize, matchSpans, h.1, h.2, hw, matchEojeol, MaxScore.tokenizeSpans, MaxScore.recursiveTokenize, hl,
    List.mapM_cons, bind, Except.bind, pure, Except.pure, getItem, concatenate, concatGo]

/-- Without `flatten`, the score of a compound also counts earlier words of the eojeol that do not belong to it (it is
    never reset), and a compound after unknown text is preceded by an empty entry. -/
theorem C19_unflattened_scores_violated :
    matchSpans [("나라".toList, 1), ("사람".toList, 1/2)] "나라의사람".toList true =
      .ok [[⟨"나라".toList, 0, 2, 1, 2⟩, ⟨"사람".toList, 3, 5, 1, 2⟩]] ∧
    matchSpans [("사람".toList, 1/2)] "그의사람".toList true =
      .ok [[⟨[], 0, 0, 0, 0⟩, ⟨"사람".toList, 2, 4, 0, 2⟩]] := by
  decide +kernel

end Props
