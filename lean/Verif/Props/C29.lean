import Verif.Model.LineCorpus
/-! C29: the length of a `DoublespaceLineCorpus` and what it iterates over. -/
namespace Props
open Py Corpus

/-- the sentences of a document: the pieces between double spaces, stripped, empty ones dropped -/
def sentencesOf (doc : Str) : List Str := ((splitDbl doc).map strip).filter (· ≠ [])

/-- the documents of a file: its lines after the header -/
def docsOf (text : Str) (skip : Nat) : List Str := (fileLines text).drop skip

theorem sent_count (doc : Str) : ((splitDbl doc).filter (fun sent => strip sent ≠ [])).length = (sentencesOf doc).length := by
  unfold sentencesOf
  induction splitDbl doc with
  | nil => rfl
  | cons p ps ih =>
    by_cases h : strip p = [] <;> simp [h] at ih ⊢ <;> exact ih

theorem afterHeader_eq (text : Str) (skip : Nat) : (afterHeader text skip).getD [] = docsOf text skip := by
  unfold afterHeader docsOf
  split
  · rename_i h; rw [List.drop_of_length_le (by omega)]; rfl
  · rfl

theorem iterDocs_eq (n : Nat) (i : Nat) (docs : List Str) (hn : n = 0 ∨ i < n) :
    iterDocs n i docs = (if n = 0 then docs else docs.take (n - i)).map strip := by
  induction docs generalizing i with
  | nil => simp [iterDocs]
  | cons d ds ih =>
    unfold iterDocs
    by_cases h0 : n = 0
    · subst h0
      rw [if_neg (by omega), ih _ (Or.inl rfl)]; simp
    · rw [if_neg h0]
      have hlt : i < n := hn.resolve_left h0
      by_cases h1 : i + 1 ≥ n
      · rw [if_pos ⟨by omega, h1⟩]
        have : n - i = 1 := by omega
        rw [this]; simp
      · rw [if_neg (fun h => h1 h.2), ih _ (Or.inr (by omega)), if_neg h0]
        have : n - i = (n - (i + 1)) + 1 := by omega
        rw [this, List.take_succ_cons, List.map_cons]

private theorem iterPieces_eq (lim n : Nat) (ps : List Str) :
    (iterPieces lim n ps).1 = (if lim = 0 then (ps.map strip).filter (· ≠ []) else ((ps.map strip).filter (· ≠ [])).take (lim - n)) ∧
    (iterPieces lim n ps).2.1 = n + (iterPieces lim n ps).1.length ∧
    ((iterPieces lim n ps).2.2 = true → 0 < lim ∧ lim ≤ (iterPieces lim n ps).2.1) := by
  induction ps generalizing n with
  | nil => simp [iterPieces]
  | cons p ps ih =>
    unfold iterPieces
    by_cases h : lim > 0 ∧ n ≥ lim
    · rw [if_pos h, if_neg (by omega)]
      have : lim - n = 0 := by omega
      rw [this]; simp; omega
    · rw [if_neg h]
      by_cases hp : strip p = []
      · rw [if_neg (by simpa using hp)]
        obtain ⟨i1, i2, i3⟩ := ih n
        refine ⟨?_, i2, i3⟩
        rw [i1]; simp [hp]
      · rw [if_pos hp]
        obtain ⟨i1, i2, i3⟩ := ih (n + 1)
        refine ⟨?_, ?_, i3⟩
        · show strip p :: (iterPieces lim (n + 1) ps).1 = _
          rw [i1]
          by_cases h0 : lim = 0
          · simp [h0, hp]
          · rw [if_neg h0, if_neg h0]
            have : lim - n = (lim - (n + 1)) + 1 := by omega
            rw [this]; simp [hp]
        · show (iterPieces lim (n + 1) ps).2.1 = n + (strip p :: (iterPieces lim (n + 1) ps).1).length
          rw [i2]; simp; omega

theorem iterSents_eq (lim n : Nat) (docs : List Str) :
    iterSents lim n docs = if lim = 0 then docs.flatMap sentencesOf else (docs.flatMap sentencesOf).take (lim - n) := by
  induction docs generalizing n with
  | nil => simp [iterSents]
  | cons d ds ih =>
    unfold iterSents
    obtain ⟨h1, h2, h3⟩ := iterPieces_eq lim n (splitDbl d)
    have h1' : (iterPieces lim n (splitDbl d)).1 = if lim = 0 then sentencesOf d else (sentencesOf d).take (lim - n) := h1
    dsimp only
    rw [List.flatMap_cons]
    by_cases hs : (iterPieces lim n (splitDbl d)).2.2 = true
    · obtain ⟨a, b⟩ := h3 hs
      rw [if_pos hs, List.append_nil, h1', if_neg (by omega), if_neg (by omega), List.take_append]
      rw [h2, h1', if_neg (by omega), List.length_take] at b
      by_cases hle : lim - n ≤ (sentencesOf d).length
      · have : lim - n - (sentencesOf d).length = 0 := by omega
        rw [this]; simp
      · have : lim ≤ n := by omega
        have : lim - n = 0 := by omega
        omega
    · rw [if_neg hs, ih, h2, h1']
      by_cases h0 : lim = 0
      · simp [h0]
      · rw [if_neg h0, if_neg h0, if_neg h0, List.take_append, List.length_take]
        congr 2
        omega

/-- number of sentences of the first `k` documents -/
private abbrev tot (docs : List Str) (k : Nat) : Nat := ((docs.take k).flatMap sentencesOf).length

private theorem checkGo_spec (nd ns : Int) (i n : Nat) (docs : List Str) :
    ∃ k ≤ docs.length, (checkGo nd ns i n docs).1 = i + k ∧
      (((checkGo nd ns i n docs).2 = n + tot docs k ∧ (k = docs.length ∨ (nd > 0 ∧ (i + k : Nat) ≥ nd)) ∧ (ns > 0 → k > 0 → (n + tot docs k : Nat) ≤ ns)) ∨
        (0 < k ∧ ns > 0 ∧ (checkGo nd ns i n docs).2 = ns.toNat ∧ ((n + tot docs k : Nat) : Int) > ns)) ∧
      (nd > 0 → (i : Int) ≤ nd → ((i + k : Nat) : Int) ≤ nd) ∧
      (ns > 0 → ∀ j, 0 < j → j < k → ((n + tot docs j : Nat) : Int) ≤ ns) := by
  induction docs generalizing i n with
  | nil => exact ⟨0, by simp, rfl, Or.inl ⟨by simp [checkGo, tot], Or.inl rfl, by omega⟩, by intro _ h; simpa using h, by omega⟩
  | cons d ds ih =>
    unfold checkGo
    by_cases h1 : nd > 0 ∧ (i : Int) ≥ nd
    · rw [if_pos h1]
      exact ⟨0, by simp, rfl, Or.inl ⟨by simp [tot], Or.inr ⟨h1.1, by simpa using h1.2⟩, by omega⟩, by intro _ h; simpa using h, by omega⟩
    · rw [if_neg h1]
      dsimp only
      rw [sent_count]
      by_cases h2 : ns > 0 ∧ ((n + (sentencesOf d).length : Nat) : Int) > ns
      · rw [if_pos h2]
        refine ⟨1, by simp, rfl, Or.inr ⟨by omega, h2.1, ?_, ?_⟩, ?_, by omega⟩
        · show min ns.toNat (n + (sentencesOf d).length) = _
          omega
        · simpa [tot] using h2.2
        · intro a b; omega
      · rw [if_neg h2]
        obtain ⟨k, hk, e1, e2, e3, e4⟩ := ih (i + 1) (n + (sentencesOf d).length)
        have et : tot (d :: ds) (k + 1) = (sentencesOf d).length + tot ds k := by simp [tot]
        refine ⟨k + 1, by simp; omega, by rw [e1]; omega, ?_, ?_, ?_⟩
        · rcases e2 with ⟨a, b, c⟩ | ⟨a, b, c, e⟩
          · refine Or.inl ⟨by rw [a, et]; omega, ?_, ?_⟩
            · rcases b with rfl | b
              · exact Or.inl (by simp)
              · exact Or.inr ⟨b.1, by have := b.2; push_cast at *; omega⟩
            · intro hns _
              rw [et]
              by_cases hk0 : k > 0
              · have := c hns hk0; omega
              · have hk0 : k = 0 := by omega
                subst hk0
                have : tot ds 0 = 0 := by simp [tot]
                rw [this]
                omega
          · exact Or.inr ⟨by omega, b, c, by rw [et]; omega⟩
        · intro a b
          have := e3 a (by omega)
          omega
        · intro hns j hj hjk
          obtain ⟨j, rfl⟩ : ∃ j', j = j' + 1 := ⟨j - 1, by omega⟩
          have et' : tot (d :: ds) (j + 1) = (sentencesOf d).length + tot ds j := by simp [tot]
          rw [et']
          by_cases hj0 : j = 0
          · subst hj0
            have : tot ds 0 = 0 := by simp [tot]
            omega
          · have := e4 hns j (by omega) (by omega)
            omega

private theorem tot_mono (docs : List Str) (k : Nat) : tot docs k ≤ (docs.flatMap sentencesOf).length := by
  have : docs.flatMap sentencesOf = (docs.take k).flatMap sentencesOf ++ (docs.drop k).flatMap sentencesOf := by
    rw [← List.flatMap_append, List.take_append_drop]
  rw [this, List.length_append]; simp [tot]

private theorem sents_take (docs : List Str) (k : Nat) : (docs.take k).flatMap sentencesOf = (docs.flatMap sentencesOf).take (tot docs k) := by
  have : docs.flatMap sentencesOf = (docs.take k).flatMap sentencesOf ++ (docs.drop k).flatMap sentencesOf := by
    rw [← List.flatMap_append, List.take_append_drop]
  rw [this, List.take_left]

private theorem tot_full (docs : List Str) : tot docs docs.length = (docs.flatMap sentencesOf).length := by simp [tot]

/-- the number of documents read to settle the limits: all of them, or those up to the document limit, or those up to
    the first one that brings the sentence count above the sentence limit, whichever comes first -/
def Counted (docs : List Str) (numDoc numSent : Int) (k : Nat) : Prop :=
  1 ≤ k ∧ k ≤ docs.length ∧ (numDoc > 0 → (k : Int) ≤ numDoc) ∧
  (numSent > 0 → ∀ j < k, (((docs.take j).flatMap sentencesOf).length : Int) ≤ numSent) ∧
  ((numSent > 0 ∧ (((docs.take k).flatMap sentencesOf).length : Int) > numSent) ∨ k = docs.length ∨ (numDoc > 0 ∧ (k : Int) = numDoc))

theorem check_counted (nd ns : Int) (docs : List Str) (hne : docs ≠ []) :
    ∃ k m, checkGo nd ns 0 0 docs = (k, m) ∧ Counted docs nd ns k ∧
      m = (if ns > 0 then min ns.toNat (tot docs k) else tot docs k) := by
  obtain ⟨k, hk, e1, e2, e3, e4⟩ := checkGo_spec nd ns 0 0 docs
  have hpos := List.length_pos_iff.2 hne
  have hk1 : 1 ≤ k := by
    rcases e2 with ⟨_, b, _⟩ | ⟨a, _⟩
    · rcases b with rfl | ⟨b1, b2⟩ <;> omega
    · omega
  refine ⟨k, (checkGo nd ns 0 0 docs).2, Prod.ext (by rw [e1]; simp) rfl, ⟨hk1, hk, fun h => by have := e3 h (by omega); omega, ?_, ?_⟩, ?_⟩
  · intro hns j hj
    by_cases h0 : j = 0
    · subst h0; simp; omega
    · have := e4 hns j (by omega) hj
      rwa [Nat.zero_add] at this
  · rcases e2 with ⟨_, b, _⟩ | ⟨_, b, _, d⟩
    · rcases b with b | ⟨b1, b2⟩
      · exact Or.inr (Or.inl b)
      · refine Or.inr (Or.inr ⟨b1, ?_⟩)
        have := e3 b1 (by omega)
        omega
    · exact Or.inl ⟨b, by simpa using d⟩
  · rcases e2 with ⟨a, _, c⟩ | ⟨_, b, c, d⟩
    · rw [a, Nat.zero_add]
      split
      · have := c (by assumption) (by omega); omega
      · rfl
    · rw [c, if_pos b]; omega

/-- the first `n` elements when `n` is a positive limit, otherwise all -/
def cutAt (n : Int) (l : List Str) : List Str := if n > 0 then l.take n.toNat else l

/-- C29 (document mode): for a file with at least one document after the header, construction and `len` never fail,
    iteration yields the stripped lines of the first `k` documents in file order, where `k` is the number of documents
    the limits allow, and `len` is exactly `k`. Calling `len` first does not change what is iterated. -/
theorem C29_documents (text : Str) (skip : Nat) (numDoc numSent : Int) (hne : docsOf text skip ≠ []) :
    ∃ c k, construct text numDoc numSent false skip = .ok c ∧ Counted (docsOf text skip) numDoc numSent k ∧
      items c = ((docsOf text skip).take k).map strip ∧ (len c).1 = k ∧ (len c).1 = (items c).length ∧ items (len c).2 = items c := by
  have hah : afterHeader text skip = some (docsOf text skip) := by
    unfold afterHeader
    rw [if_neg]
    · rfl
    · intro h
      apply hne
      unfold docsOf
      exact List.drop_of_length_le (by omega)
  have hcl : ∀ nd ns, checkLength text skip nd ns = .ok (checkGo nd ns 0 0 (docsOf text skip)) := by
    intro nd ns
    unfold checkLength
    rw [hah]
    cases hd : docsOf text skip with
    | nil => exact absurd hd hne
    | cons a l => rfl
  by_cases hlim : numDoc > 0 ∨ numSent > 0
  · obtain ⟨k, m, h1, h2, _⟩ := check_counted numDoc numSent _ hne
    have hit : ∀ m, items ⟨text, false, skip, k, m⟩ = ((docsOf text skip).take k).map strip := by
      intro m
      unfold items
      dsimp only
      rw [if_neg (by simp), afterHeader_eq, iterDocs_eq _ _ _ (Or.inr h2.1), if_neg (by have := h2.1; omega)]
      rfl
    have hln : len ⟨text, false, skip, k, m⟩ = ((k : Int), ⟨text, false, skip, k, m⟩) := by
      unfold len; dsimp only; rw [if_neg (by have := h2.1; omega)]; rfl
    refine ⟨⟨text, false, skip, k, m⟩, k, ?_, h2, hit m, ?_, ?_, ?_⟩
    · unfold Corpus.construct; rw [if_pos hlim, hcl, h1]
    · rw [hln]
    · rw [hln, hit]; simp; have := h2.2.1; omega
    · rw [hln]
  · obtain ⟨k, m, h1, h2, _⟩ := check_counted (-1) (-1) _ hne
    have hk : k = (docsOf text skip).length := by
      obtain ⟨_, _, _, _, h⟩ := h2
      omega
    have hit : ∀ m, items ⟨text, false, skip, k, m⟩ = ((docsOf text skip).take k).map strip := by
      intro m
      unfold items
      dsimp only
      rw [if_neg (by simp), afterHeader_eq, iterDocs_eq _ _ _ (Or.inr h2.1), if_neg (by have := h2.1; omega)]
      rfl
    have hit0 : items ⟨text, false, skip, 0, 0⟩ = ((docsOf text skip).take k).map strip := by
      unfold items
      dsimp only
      rw [if_neg (by simp), afterHeader_eq, iterDocs_eq _ _ _ (Or.inl rfl), if_pos rfl, hk, List.take_length]
    have hln : len ⟨text, false, skip, 0, 0⟩ = ((k : Int), ⟨text, false, skip, k, m⟩) := by
      unfold len; dsimp only; rw [if_pos rfl, hcl, h1]; rfl
    refine ⟨⟨text, false, skip, 0, 0⟩, k, ?_, ⟨h2.1, h2.2.1, fun h => absurd (Or.inl h) hlim, fun h => absurd (Or.inr h) hlim, Or.inr (Or.inl hk)⟩, hit0, ?_, ?_, ?_⟩
    · unfold Corpus.construct; rw [if_neg hlim]
    · rw [hln]
    · rw [hln, hit0]; simp; omega
    · rw [hln, hit0]; exact hit m

/-- C29 (sentence mode): for a file with at least one document after the header, with `k` the number of documents the
    limits allow, `len` is the number of sentences of those documents cut at the sentence limit; if that is not 0, or
    the file has no sentence at all, iteration yields exactly that many sentences, the first of the file in order. In
    the remaining case (see `C29_zero_violation`) the limit is lost. -/
theorem C29_sentences (text : Str) (skip : Nat) (numDoc numSent : Int) (hne : docsOf text skip ≠ []) :
    ∃ c k, construct text numDoc numSent true skip = .ok c ∧ Counted (docsOf text skip) numDoc numSent k ∧
      (len c).1 = ((cutAt numSent (((docsOf text skip).take k).flatMap sentencesOf)).length : Int) ∧
      ((len c).1 ≠ 0 ∨ (docsOf text skip).flatMap sentencesOf = [] →
        items c = cutAt numSent (((docsOf text skip).take k).flatMap sentencesOf) ∧
        (len c).1 = (items c).length) ∧
      ((len c).1 = 0 → items c = (docsOf text skip).flatMap sentencesOf) ∧ items (len c).2 = items c := by
  have hah : afterHeader text skip = some (docsOf text skip) := by
    unfold afterHeader
    rw [if_neg]
    · rfl
    · intro h
      apply hne
      unfold docsOf
      exact List.drop_of_length_le (by omega)
  have hcl : ∀ nd ns, checkLength text skip nd ns = .ok (checkGo nd ns 0 0 (docsOf text skip)) := by
    intro nd ns
    unfold checkLength
    rw [hah]
    cases hd : docsOf text skip with
    | nil => exact absurd hd hne
    | cons a l => rfl
  have hit : ∀ k m, items ⟨text, true, skip, k, m⟩ =
      if m = 0 then (docsOf text skip).flatMap sentencesOf else ((docsOf text skip).flatMap sentencesOf).take m := by
    intro k m
    unfold items
    dsimp only
    rw [if_pos rfl, afterHeader_eq, iterSents_eq, Nat.sub_zero]
  generalize docsOf text skip = docs at *
  by_cases hlim : numDoc > 0 ∨ numSent > 0
  · obtain ⟨k, m, h1, h2, hm⟩ := check_counted numDoc numSent _ hne
    have hk1 := h2.1
    have hln : len ⟨text, true, skip, k, m⟩ = ((m : Int), ⟨text, true, skip, k, m⟩) := by
      unfold len; dsimp only; rw [if_neg (by omega)]; rfl
    have hmono := tot_mono docs k
    have hmT : m = (cutAt numSent ((docs.take k).flatMap sentencesOf)).length := by
      rw [hm]; unfold cutAt
      split
      · rw [List.length_take]
      · rfl
    have hpre : cutAt numSent ((docs.take k).flatMap sentencesOf) = (docs.flatMap sentencesOf).take m := by
      rw [sents_take, hm]
      unfold cutAt
      split
      · rw [List.take_take]
      · rfl
    refine ⟨⟨text, true, skip, k, m⟩, k, ?_, h2, ?_, ?_, ?_, ?_⟩
    · unfold Corpus.construct; rw [if_pos hlim, hcl, h1]
    · rw [hln]; show (m : Int) = _; exact_mod_cast hmT
    · intro hor
      rw [hln] at hor ⊢
      rw [hit, hpre]
      rcases hor with h | h
      · have h0 : m ≠ 0 := by simpa using h
        rw [if_neg h0]
        refine ⟨rfl, ?_⟩
        rw [List.length_take]
        show (m : Int) = _
        have : m ≤ tot docs k := by rw [hm]; split <;> omega
        have : m ≤ (docs.flatMap sentencesOf).length := by omega
        omega
      · have hm0 : m = 0 := by
          have : tot docs k = 0 := by have := hmono; rw [h] at this; simpa using this
          rw [hm, this]; split <;> omega
        rw [if_pos hm0, h, hm0]; exact ⟨by simp, by simp⟩
    · intro h
      rw [hln] at h
      have h0 : m = 0 := by simpa using h
      rw [hit, if_pos h0]
    · rw [hln]
  · obtain ⟨k, m, h1, h2, hm⟩ := check_counted (-1) (-1) _ hne
    have hk : k = docs.length := by
      obtain ⟨_, _, _, _, h⟩ := h2
      omega
    rw [if_neg (by omega), hk, tot_full] at hm
    have hln : len ⟨text, true, skip, 0, 0⟩ = ((m : Int), ⟨text, true, skip, k, m⟩) := by
      unfold len; dsimp only; rw [if_pos rfl, hcl, h1]; rfl
    have hns : ¬ numSent > 0 := fun h => hlim (Or.inr h)
    have htk : cutAt numSent ((docs.take k).flatMap sentencesOf) = docs.flatMap sentencesOf := by
      unfold cutAt; rw [if_neg hns, hk, List.take_length]
    refine ⟨⟨text, true, skip, 0, 0⟩, k, ?_, ⟨h2.1, h2.2.1, fun h => absurd (Or.inl h) hlim, fun h => absurd (Or.inr h) hlim, Or.inr (Or.inl hk)⟩, ?_, ?_, ?_, ?_⟩
    · unfold Corpus.construct; rw [if_neg hlim]
    · rw [hln, htk, hm]
    · intro _
      rw [hln, hit, if_pos rfl, htk]; exact ⟨rfl, by rw [hm]⟩
    · intro _; rw [hit, if_pos rfl]
    · rw [hln, hit, hit, if_pos rfl]
      split
      · rfl
      · rw [hm, List.take_length]

/-- C29 fails in general: when the documents allowed by the limits hold no sentence, the computed limit 0 is read as "no
    limit": `len` says 0 and iteration yields every sentence of the file. -/
theorem C29_zero_violation : ∃ c, construct "\na  b\n".toList 1 (-1) true 0 = .ok c ∧ (len c).1 = 0 ∧
    items c = ["a".toList, "b".toList] := ⟨_, rfl, by decide +kernel, by decide +kernel⟩

/-- C29: the number of documents is determined by the documents and the limits. -/
theorem C29_counted (docs : List Str) (numDoc numSent : Int) (k k' : Nat) (h : Counted docs numDoc numSent k) (h' : Counted docs numDoc numSent k') : k = k' := by
  obtain ⟨a1, a2, a3, a4, a5⟩ := h
  obtain ⟨b1, b2, b3, b4, b5⟩ := h'
  rcases Nat.lt_trichotomy k k' with hlt | he | hlt
  · rcases a5 with ⟨hs, hg⟩ | he | ⟨hd, he⟩
    · have := b4 hs k hlt; omega
    · omega
    · have := b3 hd; omega
  · exact he
  · rcases b5 with ⟨hs, hg⟩ | he | ⟨hd, he⟩
    · have := a4 hs k' hlt; omega
    · omega
    · have := a3 hd; omega

/-- C29: a file with fewer lines than the header is a corpus of length 0 that yields nothing; nothing raises. -/
theorem C29_short (text : Str) (skip : Nat) (numDoc numSent : Int) (iterSent : Bool) (h : (fileLines text).length < skip) :
    ∃ c, construct text numDoc numSent iterSent skip = .ok c ∧ (len c).1 = 0 ∧ items c = [] ∧ items (len c).2 = [] := by
  have hah : afterHeader text skip = none := if_pos h
  have hcl : ∀ nd ns, checkLength text skip nd ns = .ok (0, 0) := by intro nd ns; unfold checkLength; rw [hah]
  have hit : ∀ m n, items ⟨text, iterSent, skip, m, n⟩ = [] := by
    intro m n
    unfold items
    dsimp only
    rw [hah]
    cases iterSent <;> rfl
  have hln : len ⟨text, iterSent, skip, 0, 0⟩ = (0, ⟨text, iterSent, skip, 0, 0⟩) := by
    unfold len; dsimp only; rw [if_pos rfl, hcl]; cases iterSent <;> rfl
  refine ⟨⟨text, iterSent, skip, 0, 0⟩, ?_, by rw [hln], hit 0 0, by rw [hln, hit]⟩
  unfold Corpus.construct
  split
  · rw [hcl]
  · rfl

/-- C29: without any document after the header (but a long enough file), construction with a limit raises
    UnboundLocalError, and without one `__len__` is -1 (the builtin `len` refuses that with ValueError) while iteration yields nothing. -/
theorem C29_no_document (text : Str) (skip : Nat) (numDoc numSent : Int) (iterSent : Bool) (h : (fileLines text).length = skip) :
    (numDoc > 0 ∨ numSent > 0 → construct text numDoc numSent iterSent skip = .error .unboundLocal) ∧
    (¬ (numDoc > 0 ∨ numSent > 0) → ∃ c, construct text numDoc numSent iterSent skip = .ok c ∧ (len c).1 = -1 ∧ items c = []) := by
  have hd : (fileLines text).drop skip = [] := List.drop_of_length_le (by omega)
  have hah : afterHeader text skip = some [] := by
    unfold afterHeader; rw [if_neg (by omega), hd]
  have hcl : ∀ nd ns, checkLength text skip nd ns = .error .unboundLocal := by
    intro nd ns; unfold checkLength; rw [hah]
  constructor
  · intro hl; unfold Corpus.construct; rw [if_pos hl, hcl]
  · intro hl
    refine ⟨⟨text, iterSent, skip, 0, 0⟩, by unfold Corpus.construct; rw [if_neg hl], ?_, ?_⟩
    · unfold len; dsimp only; rw [if_pos rfl, hcl]
    · unfold items; dsimp only; rw [hah]; cases iterSent <;> rfl

example : (fileLines "h\n".toList).length < 2 ∧ (fileLines "h\n".toList).length = 1 := by decide +kernel
example : docsOf "h\na  b\nc\n\nd  \n".toList 1 ≠ [] := by decide +kernel
example : ∃ c, construct "h\na  b\nc\n\nd  \n".toList (-1) 2 true 1 = .ok c ∧ (len c).1 = 2 ∧ items c = ["a".toList, "b".toList] :=
  ⟨_, rfl, by decide +kernel, by decide +kernel⟩
example : ∃ c, construct "h\na  b\nc\n\nd  \n".toList 3 (-1) false 1 = .ok c ∧ (len c).1 = 3 ∧
    items c = ["a  b".toList, "c".toList, []] := ⟨_, rfl, by decide +kernel, by decide +kernel⟩

end Props
