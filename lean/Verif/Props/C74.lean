import Verif.Props.C73
/-! C74: ChatPOSExtractor.extract: stems, endings, lemmas and frequencies. -/
namespace Props
open Py PosSpec NewsPos

private theorem noneOf (v a : List Str) (x : Str) : (v.contains x || a.contains x) = false ↔ x ∉ a ∧ x ∉ v := by
  rw [Bool.or_eq_false_iff, ← Bool.not_eq_true, ← Bool.not_eq_true, List.contains_iff_mem, List.contains_iff_mem]; exact and_comm

private theorem pred_iff (s : State) (x : Str) : predicator s x = true ↔ In s.adjectives x ∨ In s.verbs x := by
  unfold predicator; rw [Bool.or_eq_true, has_iff, has_iff]

private theorem chatFound {s s' : State} {t : WordTags} {f : Found} {ca cv : Str → Option (List (Str × Str))} {R : Dict Str Nat}
    (C : Chat s s' t f ca cv R) (base : Dict Str Entry)
    (hok : ∀ w, Free s w → compoundOf chatCheck (knownStem s) (predicator s) base w = .ok (compOf chatCheck (knownStem s) (predicator s) base w)) :
    ChatFound s base (entriesOf R (compOf chatCheck (knownStem s) (predicator s) base)) (entriesOf R (chatComp R (knownStem s) (predicator s) base)) := by
  have hRE : ∀ w, In R w → Dict.get? R w = Dict.get? s.eojeols w := by
    intro w hw
    obtain ⟨n, hn⟩ := get?_of_has hw
    have h1 : (w, n) ∈ R := Dict.mem_of_get? hn
    rw [C.rsub] at h1
    have h2 := (List.mem_filter.1 h1).1
    rw [hn]
    exact ((Dict.mem_iff_get? C.eojWF).1 h2).symm
  refine ⟨⟨wf_entries C.rwf _, wf_entries C.rwf _⟩, ?_, ?_, ?_⟩
  · intro w n ls h
    rw [get?_entries C.rwf] at h
    cases hg : Dict.get? R w with
    | none => rw [hg] at h; cases h
    | some k =>
      rw [hg] at h
      have hin : In R w := by rw [In, ← Dict.isSome_get?_iff, hg]; rfl
      cases hc : compOf chatCheck (knownStem s) (predicator s) base w with
      | none => rw [hc] at h; cases h
      | some ls' =>
        rw [hc] at h
        cases h
        refine ⟨by rw [← hRE w hin, hg], free_iff.1 ((C.rkeys w).1 hin), ?_⟩
        obtain ⟨a, b, e, h1, h2, h3, h4⟩ := compOf_some_check (pred_iff s) hc
        refine ⟨a, b, e, h1, h2, h3, fun q => ?_⟩
        rw [h4 q]
        refine exists_congr fun stem => and_congr_right fun _ => and_congr_right fun _ => ?_
        rw [chatCheck_iff, noneOf]; rfl
  · rintro w hU ⟨ls, a, b, e, h1, h2, h3, h4⟩
    have hf : Free s w := free_iff.2 hU
    rw [In, mem_keys_entries]
    refine ⟨(C.rkeys w).2 hf, ?_⟩
    by_contra hn
    have hn' : compOf chatCheck (knownStem s) (predicator s) base w = none := by simpa using hn
    have ho := hok w hf
    rw [hn'] at ho
    obtain ⟨q, hq⟩ := List.exists_mem_of_ne_nil ls h3
    obtain ⟨stem, h5, h6, h7, h8⟩ := (h4 q).1 hq
    have := compOf_none_check (pred_iff s) ho a b e h1 h2 stem q.2 h5 ((chatCheck_iff _ _).2 (by rw [← h6]; exact h7))
    rw [← h6] at this
    have h9 := (noneOf s.verbStems s.adjectiveStems q.1).2 h8
    unfold knownStem at this
    rw [h9] at this; cases this
  · intro w n ls'
    rw [get?_entries C.rwf]
    obtain ⟨D, hD⟩ : ∃ D, D = entriesOf R (compOf chatCheck (knownStem s) (predicator s) base) := ⟨_, rfl⟩
    have hgD : Dict.get? D w = (Dict.get? R w).bind (fun n => (compOf chatCheck (knownStem s) (predicator s) base w).map (fun ls => (n, ls))) := by
      rw [hD, get?_entries C.rwf]
    rw [← hD]
    unfold chatComp
    rw [← hD, hgD]
    have hp : ∀ x, (!(findWrongStem D).contains x) = true ↔ ¬ WrongStem D x := by
      intro x
      rw [Bool.not_eq_true', ← Bool.not_eq_true, List.contains_iff_mem, mem_findWrongStem]; rfl
    cases Dict.get? R w with
    | none => simp
    | some k =>
      cases compOf chatCheck (knownStem s) (predicator s) base w with
      | none => simp
      | some ls =>
        simp only [Option.bind_some, Option.map_some, without]
        constructor
        · intro h
          split at h
          · cases h
          · rename_i hne
            cases h
            exact ⟨hne, ls, rfl, _, hp, rfl⟩
        · rintro ⟨hne, ls2, h2, p, hp2, rfl⟩
          cases h2
          have hpe : (fun l : Str × Str => p l.1) = (fun l => !(findWrongStem D).contains l.1) := by
            funext l; rw [Bool.eq_iff_iff, hp2, hp]
          rw [hpe] at hne ⊢
          rw [if_neg hne]; rfl

private theorem lemmaSum_append (A B : Dict Str Entry) (g : Str × Entry → Int) (p : Str × Str → Bool) :
    lemmaSum (A ++ B : List (Str × Entry)) g p = lemmaSum A g p + lemmaSum B g p := by
  unfold lemmaSum; rw [List.map_append, List.sum_append]

private theorem lemmaSum_congr (A : Dict Str Entry) (g h : Str × Entry → Int) (p : Str × Str → Bool) (hg : ∀ e ∈ A, g e = h e) :
    lemmaSum A g p = lemmaSum A h p := by
  unfold lemmaSum; rw [List.map_congr_left (fun e he => by rw [hg e he])]

private theorem lemmaSum_neg (A : Dict Str Entry) (p : Str × Str → Bool) : lemmaSum A (fun _ => -1) p = - lemmaSum A (fun _ => 1) p := by
  unfold lemmaSum
  induction A with
  | nil => simp
  | cons e A ih => simp only [List.map_cons, List.sum_cons] at ih ⊢; rw [ih]; ring

private theorem foldl_set_new (ys zs : Dict Str Entry) (hw : Dict.WF ys) (hd : ∀ w, In ys w → ¬ In zs w) :
    ys.foldl (fun d e => Dict.set d e.1 e.2) zs = zs ++ ys := by
  induction ys generalizing zs with
  | nil => simp
  | cons y ys ih =>
    have hy : y.1 ∉ Dict.keys ys ∧ Dict.WF ys := by
      have := hw; unfold Dict.WF at this; simp only [Dict.keys, List.map_cons, List.nodup_cons] at this; exact this
    have hset : ∀ zs : Dict Str Entry, y.1 ∉ Dict.keys zs → Dict.set zs y.1 y.2 = zs ++ [(y.1, y.2)] := by
      intro zs h
      induction zs with
      | nil => rfl
      | cons z zs ihz =>
        simp only [Dict.keys, List.map_cons, List.mem_cons, not_or] at h
        obtain ⟨a, b⟩ := z
        simp only [Dict.set]
        rw [if_neg (fun e => h.1 e.symm), ihz h.2]; rfl
    have hyn : y.1 ∉ Dict.keys zs := hd y.1 (by simp [In, Dict.keys])
    rw [List.foldl_cons, hset zs hyn, ih _ hy.2]
    · simp
    · intro w hw' hc
      simp only [In, Dict.keys, List.map_append, List.map_cons, List.map_nil, List.mem_append, List.mem_cons, List.not_mem_nil, or_false] at hc
      rcases hc with hc | hc
      · exact hd w (by simp only [In, Dict.keys, List.map_cons, List.mem_cons]; exact Or.inr hw') hc
      · subst hc; exact hy.1 hw'

private theorem wrongEomi_iff (base kept : Dict Str Entry) (hw : Dict.WF kept) (hd : ∀ w, In kept w → ¬ In base w) (e : Str) :
    e ∈ findWrongEomi (update base kept) kept ↔ endingCount base e < endingCount kept e := by
  rw [mem_findWrongEomi]
  unfold update endingCount
  rw [foldl_set_new kept base hw hd, lemmaSum_append]
  rw [lemmaSum_congr base _ (fun _ => -1), lemmaSum_congr kept _ (fun _ => 1), lemmaSum_neg]
  · constructor <;> intro h <;> omega
  · intro x hx
    rw [if_pos]
    rw [has_iff]; exact List.mem_map.2 ⟨x, hx, rfl⟩
  · intro x hx
    rw [if_neg]
    rw [has_iff]
    intro hc
    exact hd _ hc (List.mem_map.2 ⟨x, hx, rfl⟩)

private theorem kept_new {s : State} {base cand kept : Dict Str Entry} (h : ChatFound s base cand kept) (w : Str) (hw : In kept w) : ¬ Known s w := by
  obtain ⟨⟨n, ls⟩, hg⟩ := get?_of_has hw
  obtain ⟨_, ls0, hg0, _⟩ := (h.kept w n ls).1 hg
  exact (h.sound w n ls0 hg0).2.1.2.1

/-- the lemmatizer proposes, for some split of the word, a lemma of known stem and ending -/
def HasLemma (stems eomis : List Str) (w : Str) : Prop :=
  ∃ l r out q, w = l ++ r ∧ l ≠ [] ∧ Lemma.lemmaCandidate l r = .ok out ∧ q ∈ out ∧ q.1 ∈ stems ∧ q.2 ∈ eomis

theorem lemmatize_isSome (stems eomis : List Str) (w : Str) : (lemmatize stems eomis w).isSome = true ↔ HasLemma stems eomis w := by
  constructor
  · intro h
    obtain ⟨ls, hls⟩ := Option.isSome_iff_exists.1 h
    obtain ⟨hne, _, l, r, out, h1, h2, h3, h4, _⟩ := lemmatize_some hls
    obtain ⟨q, hq⟩ := List.exists_mem_of_ne_nil ls hne
    exact ⟨l, r, out, q, h1, h2, h3, (h4 q).1 hq⟩
  · rintro ⟨l, r, out, q, h1, h2, h3, h4, h5, h6⟩
    cases hl : lemmatize stems eomis w with
    | some _ => rfl
    | none => exact absurd ⟨h5, h6⟩ (lemmatize_none hl l r h1 h2 out h3 q h4)

private theorem entry_some {k : Option Nat} {c d l : Option (List (Str × Str))} {n : Nat} {ls : List (Str × Str)}
    (h : (k.bind (fun n => (if c.isSome || d.isSome then c else l).map (fun ls => (n, ls)))) = some (n, ls)) :
    k = some n ∧ (c = some ls ∨ c.isSome = false ∧ d.isSome = false ∧ l = some ls) := by
  cases k with
  | none => cases h
  | some k =>
    cases c with
    | some c => simp at h; exact ⟨by rw [h.1], Or.inl (by rw [h.2])⟩
    | none =>
      cases d with
      | some d => simp at h
      | none =>
        cases l with
        | none => simp at h
        | some l => simp at h; exact ⟨by rw [h.1], Or.inr ⟨rfl, rfl, by rw [h.2]⟩⟩

/-- C74 (a): stems, particles and endings. No stem is ever learned. The particles are those of the chat list. Of the endings, exactly those are
    dropped that occur more often in the new compounds than in the known words of the same kind -/
theorem C74_tables {josas : List Str} {s s' : State} {t : WordTags} (hE : WordLike s.eojeols) (h : chatExtract josas s = .ok (s', t)) :
    t.adjectiveStem = s.adjectiveStems ∧ t.verbStem = s.verbStems ∧ t.josa = josas ∧
    ∃ candA keptA candV keptV, ChatFound (withJosas josas s) s.adjectives candA keptA ∧ ChatFound (withJosas josas s) s.verbs candV keptV ∧
      (∀ e, e ∈ t.eomi ↔ e ∈ s.eomis ∧ endingCount keptA e ≤ endingCount s.adjectives e ∧ endingCount keptV e ≤ endingCount s.verbs e) ∧
      (∀ w, In t.adjective w ↔ In s.eojeols w ∧ In s.adjectives w ∨ Unread (withJosas josas s) w ∧
        (In keptA w ∨ ¬ In keptA w ∧ ¬ In keptV w ∧ HasLemma s.adjectiveStems t.eomi w)) ∧
      (∀ w, In t.verb w ↔ In s.eojeols w ∧ In s.verbs w ∨ Unread (withJosas josas s) w ∧
        (In keptV w ∨ ¬ In keptA w ∧ ¬ In keptV w ∧ HasLemma s.verbStems t.eomi w)) ∧
      (∀ w n l, Dict.get? t.adjective w = some (n, l) → ∃ ls, l = some ls ∧ ((∃ m, Dict.get? s.adjectives w = some (m, ls)) ∨
        (∃ m, Dict.get? keptA w = some (m, ls)) ∨ KnownLemmas s.adjectiveStems t.eomi w ls)) ∧
      (∀ w n l, Dict.get? t.verb w = some (n, l) → ∃ ls, l = some ls ∧ ((∃ m, Dict.get? s.verbs w = some (m, ls)) ∨
        (∃ m, Dict.get? keptV w = some (m, ls)) ∨ KnownLemmas s.verbStems t.eomi w ls)) := by
  obtain ⟨f, ca, cv, R, C⟩ := extract_chat hE.1 h
  have FA := chatFound C s.adjectives (fun w hw => (C.ok w hw).1)
  have FV := chatFound C s.verbs (fun w hw => (C.ok w hw).2)
  have ea : entriesOf R (chatComp R (knownStem (withJosas josas s)) (predicator (withJosas josas s)) s.adjectives) = entriesOf R ca := by rw [C.eca]; rfl
  have ev : entriesOf R (chatComp R (knownStem (withJosas josas s)) (predicator (withJosas josas s)) s.verbs) = entriesOf R cv := by rw [C.ecv]; rfl
  rw [ea] at FA
  rw [ev] at FV
  have kA : ∀ w, In (entriesOf R ca) w ↔ Free (withJosas josas s) w ∧ (ca w).isSome = true := by
    intro w; rw [In, mem_keys_entries, C.rkeys]
  have kV : ∀ w, In (entriesOf R cv) w ↔ Free (withJosas josas s) w ∧ (cv w).isSome = true := by
    intro w; rw [In, mem_keys_entries, C.rkeys]
  have sA : t.adjectiveStem = s.adjectiveStems := by rw [C.tAS, C.stemsA]; rfl
  have sV : t.verbStem = s.verbStems := by rw [C.tVS, C.stemsV]; rfl
  have lA : ∀ w, (lemmatize s'.adjectiveStems s'.eomis w).isSome = true ↔ HasLemma s.adjectiveStems t.eomi w := by
    intro w; rw [lemmatize_isSome, C.tE, C.stemsA]; rfl
  have lV : ∀ w, (lemmatize s'.verbStems s'.eomis w).isSome = true ↔ HasLemma s.verbStems t.eomi w := by
    intro w; rw [lemmatize_isSome, C.tE, C.stemsV]; rfl
  refine ⟨sA, sV, by rw [C.tJ, C.josas]; rfl, _, _, _, _, FA, FV, ?_, ?_, ?_, ?_, ?_⟩
  · intro e
    have w1 := wrongEomi_iff s.adjectives (entriesOf R ca) FA.wf.2 (fun w hw ha => kept_new FA w hw (Or.inr (Or.inl ha))) e
    have w2 := wrongEomi_iff s.verbs (entriesOf R cv) FV.wf.2 (fun w hw ha => kept_new FV w hw (Or.inr (Or.inr (Or.inl ha)))) e
    have h0 := C.eomis e
    change e ∈ s'.eomis ↔ e ∈ s.eomis ∧ e ∉ findWrongEomi (update s.adjectives (entriesOf R ca)) (entriesOf R ca) ∧
      e ∉ findWrongEomi (update s.verbs (entriesOf R cv)) (entriesOf R cv) at h0
    rw [w1, w2, not_lt, not_lt] at h0
    rw [C.tE, h0]
  · intro w
    rw [(chat_words C w).1, In, C.facts.keysA, kA, kV]
    have hU : Free (withJosas josas s) w ↔ Unread (withJosas josas s) w := free_iff
    rw [← hU, lA]
    refine or_congr Iff.rfl (and_congr_right fun hf => ?_)
    simp [hf]
  · intro w
    rw [(chat_words C w).2.1, In, C.facts.keysV, kA, kV]
    have hU : Free (withJosas josas s) w ↔ Unread (withJosas josas s) w := free_iff
    rw [← hU, lV]
    refine or_congr Iff.rfl (and_congr_right fun hf => ?_)
    simp [hf]
  · intro w n l hw
    rw [C.tA, get?_asPredicator C.facts.inv.wfA] at hw
    obtain ⟨m, hm, he⟩ := Option.map_eq_some_iff.1 hw
    have hk : w ∈ Dict.keys f.adjectives := by rw [← Dict.isSome_get?_iff, hm]; rfl
    have hcases := (C.facts.keysA w).1 hk
    have hin : In (withJosas josas s).eojeols w := by rcases hcases with h1 | h1; exacts [h1.1, h1.1.1]
    have hent := C.facts.entryA w hin
    cases he
    unfold lemmaFor
    rcases hcases with ⟨_, h1⟩ | ⟨hf, h2⟩
    · rw [if_pos h1] at hent
      obtain ⟨x, hx⟩ := get?_of_has h1
      rw [hent, hx]
      exact ⟨x.2, rfl, Or.inl ⟨x.1, hx⟩⟩
    · have hna : ¬ In (withJosas josas s).adjectives w := fun h' => (free_iff.1 hf).2.1 (Or.inr (Or.inl h'))
      rw [if_neg hna, if_pos hf] at hent
      obtain ⟨k, hk'⟩ := get?_of_has hin
      have hsome : ∃ y, Dict.get? s'.adjectives w = some y := by
        rw [hent, hk']
        rcases h2 with h2 | ⟨h2, h3, h4⟩
        · obtain ⟨c, hc⟩ := Option.isSome_iff_exists.1 h2
          exact ⟨_, by rw [hc]; rfl⟩
        · obtain ⟨c, hc⟩ := Option.isSome_iff_exists.1 h4
          exact ⟨_, by rw [h2, h3, hc]; rfl⟩
      obtain ⟨⟨y1, y2⟩, hy⟩ := hsome
      rw [hy]
      rw [hy] at hent
      refine ⟨y2, rfl, Or.inr ?_⟩
      rcases (entry_some hent.symm).2 with h3 | ⟨_, _, h3⟩
      · left
        have hR : w ∈ Dict.keys R := (C.rkeys w).2 hf
        obtain ⟨j, hj⟩ := get?_of_has hR
        exact ⟨j, by rw [get?_entries C.rwf, hj, h3]; rfl⟩
      · right
        have := lemmatize_some h3
        rw [C.stemsA, ← C.tE] at this
        exact this
  · intro w n l hw
    rw [C.tV, get?_asPredicator C.facts.inv.wfV] at hw
    obtain ⟨m, hm, he⟩ := Option.map_eq_some_iff.1 hw
    have hk : w ∈ Dict.keys f.verbs := by rw [← Dict.isSome_get?_iff, hm]; rfl
    have hcases := (C.facts.keysV w).1 hk
    have hin : In (withJosas josas s).eojeols w := by rcases hcases with h1 | h1; exacts [h1.1, h1.1.1]
    have hent := C.facts.entryV w hin
    cases he
    unfold lemmaFor
    rcases hcases with ⟨_, h1⟩ | ⟨hf, h2⟩
    · rw [if_pos h1] at hent
      obtain ⟨x, hx⟩ := get?_of_has h1
      rw [hent, hx]
      exact ⟨x.2, rfl, Or.inl ⟨x.1, hx⟩⟩
    · have hna : ¬ In (withJosas josas s).verbs w := fun h' => (free_iff.1 hf).2.1 (Or.inr (Or.inr (Or.inl h')))
      rw [if_neg hna, if_pos hf] at hent
      obtain ⟨k, hk'⟩ := get?_of_has hin
      have hent' : Dict.get? s'.verbs w = (Dict.get? (withJosas josas s).eojeols w).bind (fun n =>
          (if (cv w).isSome || (ca w).isSome then cv w else lemmatize s'.verbStems s'.eomis w).map (fun ls => (n, ls))) := by
        rw [hent, Bool.or_comm]
      have hsome : ∃ y, Dict.get? s'.verbs w = some y := by
        rw [hent', hk']
        rcases h2 with h2 | ⟨h2, h3, h4⟩
        · obtain ⟨c, hc⟩ := Option.isSome_iff_exists.1 h2
          exact ⟨_, by rw [hc]; rfl⟩
        · obtain ⟨c, hc⟩ := Option.isSome_iff_exists.1 h4
          exact ⟨_, by rw [h2, h3, hc]; rfl⟩
      obtain ⟨⟨y1, y2⟩, hy⟩ := hsome
      rw [hy]
      rw [hy] at hent'
      refine ⟨y2, rfl, Or.inr ?_⟩
      rcases (entry_some hent'.symm).2 with h3 | ⟨_, _, h3⟩
      · left
        have hR : w ∈ Dict.keys R := (C.rkeys w).2 hf
        obtain ⟨j, hj⟩ := get?_of_has hR
        exact ⟨j, by rw [get?_entries C.rwf, hj, h3]; rfl⟩
      · right
        have := lemmatize_some h3
        rw [C.stemsV, ← C.tE] at this
        exact this

/-- C74 (b): frequencies. Adverbs are exact; adjectives and verbs are counted at least as often as the eojeol and at most as often as recognised
    eojeols end with them; nouns at least as often as the eojeol and at most three times as often as recognised eojeols begin with them -/
theorem C74_frequencies {josas : List Str} {s s' : State} {t : WordTags} (hE : WordLike s.eojeols) (h : chatExtract josas s = .ok (s', t)) (w : Str) :
    (Dict.get? t.adverb w = if w ∈ s.adverbs then Dict.get? s.eojeols w else none) ∧
    (∀ n l, Dict.get? t.adjective w = some (n, l) → Dict.getD s.eojeols w 0 ≤ n ∧
      n ≤ mass s.eojeols (fun e => !Dict.has t.irrecognizable e && decide (w <:+ e))) ∧
    (∀ n l, Dict.get? t.verb w = some (n, l) → Dict.getD s.eojeols w 0 ≤ n ∧
      n ≤ mass s.eojeols (fun e => !Dict.has t.irrecognizable e && decide (w <:+ e))) ∧
    (∀ n, Dict.get? t.noun w = some n ∨ Dict.get? t.confusedNouns w = some n → (w ∈ s.nouns → Dict.getD s.eojeols w 0 ≤ n) ∧
      n ≤ 3 * mass s.eojeols (fun e => !Dict.has t.irrecognizable e && decide (w <+: e))) := by
  obtain ⟨f, ca, cv, R, C⟩ := extract_chat hE.1 h
  refine ⟨?_, ?_, ?_, ?_⟩
  · rw [C.tB]
    have : (withJosas josas s).eojeols = s.eojeols := rfl
    rw [this, Dict.get?_filter hE.1]
    have : (withJosas josas s).adverbs = s.adverbs := rfl
    rw [this]
    by_cases hw : w ∈ s.adverbs
    · rw [if_pos hw]; cases Dict.get? s.eojeols w <;> simp [Option.filter, hw]
    · rw [if_neg hw]; cases Dict.get? s.eojeols w <;> simp [Option.filter, hw]
  · intro n l hw
    rw [C.tA, get?_asPredicator C.facts.inv.wfA] at hw
    obtain ⟨m, hm, he⟩ := Option.map_eq_some_iff.1 hw
    cases he
    have hk : w ∈ Dict.keys f.adjectives := by rw [← Dict.isSome_get?_iff, hm]; rfl
    have h1 := C.facts.inv.lowA w hk
    have h2 := C.facts.inv.upA w
    rw [getD_of_has hm] at h1 h2
    rw [C.tI]
    exact ⟨h1, h2⟩
  · intro n l hw
    rw [C.tV, get?_asPredicator C.facts.inv.wfV] at hw
    obtain ⟨m, hm, he⟩ := Option.map_eq_some_iff.1 hw
    cases he
    have hk : w ∈ Dict.keys f.verbs := by rw [← Dict.isSome_get?_iff, hm]; rfl
    have h1 := C.facts.inv.lowV w hk
    have h2 := C.facts.inv.upV w
    rw [getD_of_has hm] at h1 h2
    rw [C.tI]
    exact ⟨h1, h2⟩
  · intro n hw
    have hg : Dict.get? f.nouns w = some n := by
      rcases hw with hw | hw
      · rw [C.tN, Dict.get?_filter C.facts.inv.wfN] at hw
        exact (Option.filter_eq_some_iff.1 hw).1
      · rw [C.tC] at hw
        split at hw
        · exact hw
        · cases hw
    have h2 := C.facts.inv.upN w
    rw [getD_of_has hg] at h2
    rw [C.tI]
    refine ⟨fun hs => ?_, h2⟩
    have h1 := C.facts.inv.lowN w hs
    rw [getD_of_has hg] at h1
    exact h1

/-- the hypotheses are met, and the wrong-stem rule acts: the only reading of 먹다먹ㅋ is refused -/
example : ∃ s' t, chatExtract demoChatJosas demoChat = .ok (s', t) ∧ In t.verb "가다먹다".toList ∧ "가다먹".toList ∉ t.verbStem ∧
    ("먹다먹ㅋ".toList, 2) ∈ t.irrecognizable ∧ In t.confusedNouns "학교가".toList := by
  have h : (match chatExtract demoChatJosas demoChat with
    | .ok (_, t) => decide ("가다먹다".toList ∈ Dict.keys t.verb ∧ "가다먹".toList ∉ t.verbStem ∧ ("먹다먹ㅋ".toList, 2) ∈ t.irrecognizable ∧
        "학교가".toList ∈ Dict.keys t.confusedNouns)
    | .error _ => false) = true := by decide +kernel
  cases he : chatExtract demoChatJosas demoChat with
  | error e => rw [he] at h; cases h
  | ok x =>
    rw [he] at h
    exact ⟨x.1, x.2, rfl, of_decide_eq_true h⟩

/-- an ending is dropped: 야 occurs once among the verbs and in two new compounds -/
def demoDrop : State :=
  ⟨[], [], [("가다".toList, (1, [("가".toList, "다".toList)])), ("먹야".toList, (1, [("먹".toList, "야".toList)]))], [], ["가".toList, "먹".toList],
   ["다".toList, "야".toList], [], [], [("가다먹야".toList, 3), ("먹야먹야".toList, 2)]⟩

example : ∃ s' t, chatExtract [] demoDrop = .ok (s', t) ∧ t.eomi = ["다".toList] := by
  have h : (match chatExtract [] demoDrop with
    | .ok (_, t) => decide (t.eomi = ["다".toList])
    | .error _ => false) = true := by decide +kernel
  cases he : chatExtract [] demoDrop with
  | error e => rw [he] at h; cases h
  | ok x =>
    rw [he] at h
    exact ⟨x.1, x.2, rfl, of_decide_eq_true h⟩

private theorem chatCheck_error_iff (stem eomi : Str) : (∃ e, chatCheck stem eomi = .error e) ↔
    (∀ c ∈ ['업', '닿', '땋'], stem.getLast? ≠ some c) ∧ JoinUndefined stem eomi := by
  unfold chatCheck
  by_cases h : stem.getLast? = some '업' ∨ stem.getLast? = some '닿' ∨ stem.getLast? = some '땋'
  · rw [if_pos h]
    refine ⟨fun ⟨e, h⟩ => (by cases h), fun hc => ?_⟩
    rcases h with h | h | h
    · exact absurd h (hc.1 _ (by simp))
    · exact absurd h (hc.1 _ (by simp))
    · exact absurd h (hc.1 _ (by simp))
  · rw [if_neg h, joinUndefined_iff]
    refine ⟨fun hj => ⟨fun c hc he => h ?_, hj⟩, fun hc => hc.2⟩
    simp only [List.mem_cons, List.not_mem_nil, or_false] at hc
    rcases hc with rfl | rfl | rfl
    · exact Or.inl he
    · exact Or.inr (Or.inl he)
    · exact Or.inr (Or.inr he)

private theorem chatParse_error_iff {stems predicators : Str → Bool} {base : Dict Str Entry} {R : Dict Str Nat} (h : ∀ w, In R w → ¬ In base w) :
    (∃ e, chatParse stems predicators base R = .error e) ↔ ∃ e, parseCompounds chatCheck stems predicators base R = .error e := by
  unfold chatParse
  rw [chatCompounds_eq h]
  cases parseCompounds chatCheck stems predicators base R with
  | error e => exact ⟨fun _ => ⟨e, rfl⟩, fun _ => ⟨e, rfl⟩⟩
  | ok x => exact ⟨fun ⟨e, h⟩ => (by cases h), fun ⟨e, h⟩ => (by cases h)⟩

private theorem chatMatch_error_iff {s : State} {f : Found} (h1 : ∀ w, In f.eojeols w → ¬ In s.adjectives w) (h2 : ∀ w, In f.eojeols w → ¬ In s.verbs w) :
    (∃ e, chatMatchPredicatorCompounds s f = .error e) ↔ ∃ w, In f.eojeols w ∧ ∃ base ∈ [s.adjectives, s.verbs], ∃ a b p,
      ShortestRead (fun x => In s.adjectives x ∨ In s.verbs x) (In base) w a b ∧ Dict.get? base b = some p ∧
      ∃ q ∈ p.2, (∀ c ∈ ['업', '닿', '땋'], (a ++ q.1).getLast? ≠ some c) ∧ JoinUndefined (a ++ q.1) q.2 := by
  have hL : ∀ x, (Dict.has s.adjectives x || Dict.has s.verbs x) = true ↔ In s.adjectives x ∨ In s.verbs x := by
    intro x; rw [Bool.or_eq_true, Dict.isSome_get?_iff, Dict.isSome_get?_iff]
  have key : ∀ (stems : Str → Bool) (base : Dict Str Entry), (∀ w, In f.eojeols w → ¬ In base w) →
      ((∃ e, chatParse stems (fun w => Dict.has s.adjectives w || Dict.has s.verbs w) base f.eojeols = .error e) ↔
      ∃ w, In f.eojeols w ∧ ∃ a b p, ShortestRead (fun x => In s.adjectives x ∨ In s.verbs x) (In base) w a b ∧
        Dict.get? base b = some p ∧ ∃ q ∈ p.2, (∀ c ∈ ['업', '닿', '땋'], (a ++ q.1).getLast? ≠ some c) ∧ JoinUndefined (a ++ q.1) q.2) := by
    intro stems base hb
    rw [chatParse_error_iff hb, parseCompounds_error_iff]
    simp only [compoundOf_error_iff hL, chatCheck_error_iff]
  have k1 := key (fun w => s.verbStems.contains w || s.adjectiveStems.contains w) s.adjectives h1
  unfold chatMatchPredicatorCompounds
  dsimp only
  cases ha : chatParse (fun w => s.verbStems.contains w || s.adjectiveStems.contains w) (fun w => Dict.has s.adjectives w || Dict.has s.verbs w)
      s.adjectives f.eojeols with
  | error e =>
    dsimp only
    refine ⟨fun _ => ?_, fun _ => ⟨e, rfl⟩⟩
    obtain ⟨w, hw, h⟩ := k1.1 ⟨e, ha⟩
    exact ⟨w, hw, s.adjectives, by simp, h⟩
  | ok x =>
    obtain ⟨adj, sA, cA⟩ := x
    dsimp only
    have k2 := key (fun w => s.verbStems.contains w || (s.adjectiveStems ++ sA).contains w) s.verbs h2
    cases hv : chatParse (fun w => s.verbStems.contains w || (s.adjectiveStems ++ sA).contains w)
        (fun w => Dict.has s.adjectives w || Dict.has s.verbs w) s.verbs f.eojeols with
    | error e =>
      refine ⟨fun _ => ?_, fun _ => ⟨e, rfl⟩⟩
      obtain ⟨w, hw, h⟩ := k2.1 ⟨e, hv⟩
      exact ⟨w, hw, s.verbs, by simp, h⟩
    | ok y =>
      refine ⟨fun ⟨e, h⟩ => (by cases h), ?_⟩
      rintro ⟨w, hw, base, hb, h⟩
      exfalso
      rcases List.mem_cons.1 hb with rfl | hb
      · obtain ⟨e, he⟩ := k1.2 ⟨w, hw, h⟩
        rw [ha] at he; cases he
      · rw [List.mem_singleton] at hb
        subst hb
        obtain ⟨e, he⟩ := k2.2 ⟨w, hw, h⟩
        rw [hv] at he; cases he

/-- C74 (c): `ChatPOSExtractor.extract` raises exactly when some eojeol that is neither known nor a noun with an ending (its own particle list) is
    read as a known predicator followed by a known adjective (verb) form, and for one of the lemmas of that form, whose stem does not end in
    업, 닿 or 땋, the test whether stem and ending join is undefined -/
theorem C74_raises_iff (josas : List Str) (s : State) :
    (∃ e, chatExtract josas s = .error e) ↔ ∃ w, In s.eojeols w ∧ ¬ Known s w ∧
      (¬ ∃ l r, Reads (Standing s) (Ending { s with josas := josas }) w l r) ∧
      ∃ base ∈ [s.adjectives, s.verbs], ∃ a b p, ShortestRead (fun x => In s.adjectives x ∨ In s.verbs x) (In base) w a b ∧
        Dict.get? base b = some p ∧ ∃ q ∈ p.2, (∀ c ∈ ['업', '닿', '땋'], (a ++ q.1).getLast? ≠ some c) ∧ JoinUndefined (a ++ q.1) q.2 := by
  have e1 := free_keys (withJosas josas s)
  have hm := chatMatch_error_iff (s := withJosas josas s) (f := matchNounAndWord (withJosas josas s) (matchWord (withJosas josas s)))
    (fun w hw h' => (known_false.1 ((e1 w).1 hw).2.1).2.1 h') (fun w hw h' => (known_false.1 ((e1 w).1 hw).2.1).2.2.1 h')
  have h0 : (∃ e, chatExtract josas s = .error e) ↔ ∃ e, chatMatchPredicatorCompounds (withJosas josas s)
      (matchNounAndWord (withJosas josas s) (matchWord (withJosas josas s))) = .error e := by
    unfold chatExtract chatCountMatchedPatterns
    dsimp only
    cases hx : chatMatchPredicatorCompounds (withJosas josas s) (matchNounAndWord (withJosas josas s) (matchWord (withJosas josas s))) with
    | error e =>
      have hx' : chatMatchPredicatorCompounds { s with josas := josas } (matchNounAndWord { s with josas := josas } (matchWord { s with josas := josas })) =
        .error e := hx
      rw [hx']
      exact ⟨fun _ => ⟨e, rfl⟩, fun _ => ⟨e, rfl⟩⟩
    | ok x =>
      have hx' : chatMatchPredicatorCompounds { s with josas := josas } (matchNounAndWord { s with josas := josas } (matchWord { s with josas := josas })) =
        .ok x := hx
      rw [hx']
      exact ⟨fun ⟨e, h⟩ => (by cases h), fun ⟨e, h⟩ => (by cases h)⟩
  rw [h0, hm]
  constructor
  · rintro ⟨w, hw, h⟩
    obtain ⟨h1, h2, h3⟩ := free_iff.1 ((e1 w).1 hw)
    exact ⟨w, h1, h2, h3, h⟩
  · rintro ⟨w, h1, h2, h3, h⟩
    exact ⟨w, (e1 w).2 (free_iff.2 ⟨h1, h2, h3⟩), h⟩

/-- C74 (d): with Korean lemmas, `ChatPOSExtractor.extract` raises for no corpus -/
theorem C74_total (josas : List Str) (s : State) (hA : KoreanLemmas s.adjectives) (hV : KoreanLemmas s.verbs) :
    ∃ s' t, chatExtract josas s = .ok (s', t) := by
  cases h : chatExtract josas s with
  | ok x => exact ⟨x.1, x.2, rfl⟩
  | error e =>
    exfalso
    obtain ⟨w, -, -, -, base, hb, a, b, p, -, hp, q, hq, -, hj⟩ := (C74_raises_iff josas s).1 ⟨e, h⟩
    have hk : KoreanLemmas base := by
      rcases List.mem_cons.1 hb with rfl | hb
      · exact hA
      · rw [List.mem_singleton] at hb; subst hb; exact hV
    obtain ⟨h1, h2⟩ := hk b p hp q hq
    obtain ⟨o, ho⟩ := checkSuffixPrefix_ok (getLast?_append_some (l := a) h1) h2
    obtain ⟨e, he⟩ := (joinUndefined_iff _ _).2 hj
    rw [ho] at he; cases he

example : ∃ s' t, chatExtract demoChatJosas demoPos = .ok (s', t) := C74_total _ _ demoPos_korean.1 demoPos_korean.2

end Props
