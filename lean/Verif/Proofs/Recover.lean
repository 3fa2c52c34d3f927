import Verif.Proofs.Lemmatizer
import Verif.Spec.RulePairs
/-! Lemmas for C44: the lemmatiser's rules undo the rule pairs. -/
set_option linter.unusedSimpArgs false
set_option linter.unusedVariables false
namespace Lemma
open Py Hangle Spec

/-- some split of the surface gives the pair -/
def Recovered (stem ending surface : Str) : Prop :=
  ∃ l r cs, l ≠ [] ∧ surface = l ++ r ∧ lemmaCandidate l r = .ok cs ∧ (stem, ending) ∈ cs

theorem mem_runLem (x : LCtx) (fs : List (LCtx → PyM Cand)) (b : Cand) (h : runLem x fs = .ok b) (q : Str × Str) (f : LCtx → PyM Cand) (hf : f ∈ fs)
    (a : Cand) (ha : f x = .ok a) (hq : q ∈ a) : q ∈ b := by
  induction fs generalizing b with
  | nil => cases hf
  | cons g gs ih =>
    unfold runLem at h
    split at h
    · cases h
    · rename_i a' ha'
      split at h
      · cases h
      · rename_i b' hb'
        cases h
        rcases List.mem_cons.1 hf with rfl | hf
        · rw [ha] at ha'; cases ha'; exact List.mem_append_left _ hq
        · exact List.mem_append_right _ (ih b' hb' hf)

/-- a pair that conjugates to the word passes the test, unless the ending's first syllable ends in ㅎ -/
theorem keep_of {word stem ending : Str} {forms : List Str} {e0 : Char} {d : Jamo} (h : conjugate stem ending = .ok forms) (hw : word ∈ forms)
    (he : ending.head? = some e0) (hd : decomposeList e0 = .ok d) (hh : d.2.2 ≠ 'ㅎ') : keepCandidate word (stem, ending) = .ok true := by
  obtain ⟨es, rfl⟩ : ∃ es, ending = e0 :: es := by
    cases ending with
    | nil => cases he
    | cons a as => cases he; exact ⟨as, rfl⟩
  simp only [keepCandidate, hd, if_neg hh, h, hw, decide_true]

/-- the shape of a `lemma_candidate` call on syllables: a context `x`, in which any rule that gives the pair makes it a candidate -/
theorem recover {front : Str} {last : Char} {r stem ending : Str} {forms : List Str} {e0 : Char} {d ll : Jamo}
    (hfs : ∀ c ∈ front, Syllable c) (hlast : compose ll.1 ll.2.1 ll.2.2 = .ok last) (hr : ∀ c ∈ r, Syllable c)
    (h : conjugate stem ending = .ok forms) (hw : front ++ last :: r ∈ forms)
    (he : ending.head? = some e0) (hd : decomposeList e0 = .ok d) (hh : d.2.2 ≠ 'ㅎ')
    (hrule : ∀ x : LCtx, x.Good → x.l = front ++ [last] → x.front = front → x.last = last → x.ll = ll → x.r = r →
      (stem, ending) = (front ++ [last], r) ∨ ∃ f ∈ lemRules, ∃ a, f x = .ok a ∧ (stem, ending) ∈ a) :
    Recovered stem ending (front ++ last :: r) := by
  have hls : Syllable last := (compose_inv hlast).2.1
  have hl : ∀ c ∈ front ++ [last], Syllable c := by
    intro c hc
    rcases List.mem_append.1 hc with h | h
    · exact hfs c h
    · rw [List.mem_singleton.1 h]; exact hls
  obtain ⟨last', ll', lOpen, x, h1, h2, h3, h4, g, e1, e2, e3, e4, e5⟩ := lemCtx_good (front ++ [last]) r (by simp) hl hr
  have e6 : last' = last := by simpa using h1.symm
  subst e6
  have e7 : ll' = ll := by
    have := (compose_inv hlast).2.2
    rw [h2] at this; exact Except.ok.inj this
  subst e7
  have e2' : x.front = front := by rw [e2]; simp
  obtain ⟨c, hc, gc⟩ := runLem_ok x lemRules (fine_rules g)
  have hraw : rawCandidates (front ++ [last']) r [] = .ok ((front ++ [last'], r) :: c) := by
    simp [rawCandidates, h2, h3, h4, hc, Dict.getD, Dict.get?]
  obtain ⟨out, hout⟩ := lemmaCandidate_ok (front ++ [last']) r (by simp) hl hr
  refine ⟨front ++ [last'], r, out, by simp, by simp, hout, ?_⟩
  unfold lemmaCandidate at hout
  rw [hraw] at hout
  dsimp only at hout
  rw [mem_filterCandidates _ _ _ hout]
  refine ⟨?_, keep_of h (by simpa using hw) he hd hh⟩
  rcases hrule x g e1 e2' e3 e4 e5 with heq | ⟨f, hf, a, ha, hm⟩
  · rw [heq]; simp
  · exact List.mem_cons_of_mem _ (mem_runLem x lemRules c hc _ f hf a ha hm)

/-- the letters of the rest, in a good context -/
theorem good_rf {x : LCtx} (g : x.Good) {e : Char} {es : Str} {d : Jamo} (hr : x.r = e :: es) (hd : decomposeList e = .ok d) :
    x.rf = some d ∧ compose d.1 d.2.1 ' ' = .ok x.rFirst := by
  rcases g.r with ⟨h, _⟩ | ⟨r0, rs, d', h1, h2, _, h3, _, h4⟩
  · rw [hr] at h; cases h
  · rw [hr] at h1; cases h1
    rw [hd] at h3; cases h3
    exact ⟨h2, h4⟩

theorem covered_recovered {stem ending surface : Str} {forms : List Str} (hs : ∀ c ∈ stem, Syllable c)
    (e0 : Char) (d : Jamo) (het : ∀ c ∈ ending.drop 1, Syllable c)
    (h : conjugate stem ending = .ok forms) (hw : surface ∈ forms) (he : ending.head? = some e0) (hd : decomposeList e0 = .ok d)
    (hh : d.2.2 ≠ 'ㅎ') (hc : Covered stem ending surface) : Recovered stem ending surface := by
  have hsyl : ∀ {c x y z : Char}, IsSyllableOf c x y z → Syllable c := fun hi => (compose_inv (isSyllableOf_iff.1 hi)).2.1
  have cons : ∀ {c : Char} {es : Str}, Syllable c → (∀ c ∈ es, Syllable c) → ∀ c' ∈ c :: es, Syllable c' := by
    intro c es h1 h2 c' hc'
    rcases List.mem_cons.1 hc' with rfl | h
    · exact h1
    · exact h2 c' h
  have fr : ∀ {front rest : Str}, (∀ c ∈ front ++ rest, Syllable c) → ∀ c ∈ front, Syllable c := fun hf c hc => hf c (List.mem_append_left _ hc)
  cases hc with
  | regular _ _ hsy =>
    rcases List.eq_nil_or_concat stem with rfl | ⟨front, last, e⟩
    · cases ending with
      | nil => cases he
      | cons a as => simp [conjugate] at h
    · rw [List.concat_eq_append] at e
      subst e
      have hlast := hs last (by simp)
      obtain ⟨ll, _, _, h3⟩ := decomposeList_syllable hlast
      have := recover (last := last) (ll := ll) (fr hs) h3 hsy h (by simpa using hw) he hd hh
        (fun x g _ _ _ _ _ => Or.inl rfl)
      simpa using this
  | d front c c' x y e es v w h1 h2 h3 =>
    refine recover (ll := (x, y, 'ㄹ')) (fr hs) (isSyllableOf_iff.1 h2) (cons (hsyl h3) het) h hw he hd hh ?_
    intro X g _ e2 e3 e4 e5
    right
    obtain ⟨g1, _⟩ := good_rf g e5 (isSyllableOf_decompose h3)
    refine ⟨lemD, by simp [lemRules], [(front ++ [c], e :: es)], ?_, by simp⟩
    unfold lemD
    rw [if_pos ⟨by rw [e4], by simp [rf0, g1]⟩, e4]
    dsimp only
    rw [isSyllableOf_iff.1 h1, e2, e5]; rfl
  | reu front c c' x y e e' es v w h1 h2 h3 h4 hv =>
    refine recover (ll := (x, y, 'ㄹ')) (fr hs) (isSyllableOf_iff.1 h2) (cons (hsyl h4) het) h hw he hd hh ?_
    intro X g _ e2 e3 e4 e5
    right
    obtain ⟨g1, g2⟩ := good_rf g e5 (isSyllableOf_decompose h4)
    have hrf : X.rFirst = '러' ∨ X.rFirst = '라' := by
      rcases hv with rfl | rfl
      · right; exact (Except.ok.inj ((show compose 'ㄹ' 'ㅏ' ' ' = .ok '라' by decide +kernel).symm.trans g2)).symm
      · left; exact (Except.ok.inj ((show compose 'ㄹ' 'ㅓ' ' ' = .ok '러' by decide +kernel).symm.trans g2)).symm
    refine ⟨lemReu, by simp [lemRules], [(front ++ [c, '르'], e :: es)], ?_, by simp⟩
    unfold lemReu
    rw [if_pos ⟨by rw [e4], hrf⟩, g1, e4]
    dsimp only
    rw [isSyllableOf_iff.1 h1]
    dsimp only
    rw [isSyllableOf_iff.1 h3, e2, e5]; rfl
  | bVowel front c c' x y e e' es v v' w h1 h2 h3 h4 hv =>
    refine recover (ll := (x, y, ' ')) (fr hs) (isSyllableOf_iff.1 h2) (cons (hsyl h4) het) h hw he hd hh ?_
    intro X g _ e2 e3 e4 e5
    right
    obtain ⟨g1, g2⟩ := good_rf g e5 (isSyllableOf_decompose h4)
    refine ⟨lemB, by simp [lemRules], [(front ++ [c], e :: es)], ?_, by simp⟩
    have hb : bCanon X = .ok (e :: es) := by
      unfold bCanon
      rcases hv with ⟨rfl, rfl⟩ | ⟨rfl, rfl⟩
      · have hrf : X.rFirst = '워' := (Except.ok.inj ((show compose 'ㅇ' 'ㅝ' ' ' = .ok '워' by decide +kernel).symm.trans g2)).symm
        rw [if_pos (Or.inl hrf), hrf, if_neg (by decide)]
        simp only [rf2, g1, Option.map_some, Option.getD_some]
        rw [isSyllableOf_iff.1 h3, e5]; rfl
      · have hrf : X.rFirst = '와' := (Except.ok.inj ((show compose 'ㅇ' 'ㅘ' ' ' = .ok '와' by decide +kernel).symm.trans g2)).symm
        rw [if_pos (Or.inr hrf), hrf, if_pos rfl]
        simp only [rf2, g1, Option.map_some, Option.getD_some]
        rw [isSyllableOf_iff.1 h3, e5]; rfl
    unfold lemB
    rw [if_pos (by rw [e4]), e4]
    dsimp only
    rw [isSyllableOf_iff.1 h1]
    dsimp only
    rw [hb, e2]; rfl
  | bDrop front c c' x y e es v w h1 h2 h3 hv hr =>
    refine recover (ll := (x, y, ' ')) (fr hs) (isSyllableOf_iff.1 h2) (cons (hsyl h3) het) h hw he hd hh ?_
    intro X g _ e2 e3 e4 e5
    right
    obtain ⟨g1, g2⟩ := good_rf g e5 (isSyllableOf_decompose h3)
    refine ⟨lemB, by simp [lemRules], [(front ++ [c], e :: es)], ?_, by simp⟩
    have hb : bCanon X = .ok (e :: es) := by
      unfold bCanon
      have hn : ¬ (X.rFirst = '워' ∨ X.rFirst = '와') := by
        have hdec := (compose_inv g2).2.2
        rintro (e' | e')
        · rw [e'] at hdec
          have : decomposeList '워' = .ok ('ㅇ', 'ㅝ', ' ') := by decide +kernel
          rw [this] at hdec
          have := congrArg (fun p : Jamo => p.2.1) (Except.ok.inj hdec)
          exact hv.1 this.symm
        · rw [e'] at hdec
          have : decomposeList '와' = .ok ('ㅇ', 'ㅘ', ' ') := by decide +kernel
          rw [this] at hdec
          have := congrArg (fun p : Jamo => p.2.1) (Except.ok.inj hdec)
          exact hv.2 this.symm
      rw [if_neg hn, e5]
      split
      · rename_i hry
        have hv' := hr hry
        subst hv'
        simp only [rf2, g1, Option.map_some, Option.getD_some]
        rw [isSyllableOf_iff.1 h3]; rfl
      · rfl
    unfold lemB
    rw [if_pos (by rw [e4]), e4]
    dsimp only
    rw [isSyllableOf_iff.1 h1]
    dsimp only
    rw [hb, e2]; rfl
  | attach front c c' x y z s es hsm h1 hz hne h2 =>
    refine recover (ll := (x, y, s)) (fr hs) (isSyllableOf_iff.1 h2) het h hw he hd hh ?_
    intro X g _ e2 e3 e4 e5
    right
    refine ⟨lemJong z, by simp only [List.mem_cons, List.not_mem_nil, or_false] at hz; rcases hz with rfl | rfl | rfl | rfl <;> simp [lemRules],
      [(front ++ [c], s :: es)], ?_, by simp⟩
    unfold lemJong
    rw [e4]
    rw [if_pos (by simpa using hsm)]
    unfold lemJongOne
    rw [e4]
    dsimp only
    rw [if_neg (fun e => hne e.symm), isSyllableOf_iff.1 h1, e2, e5]; rfl
  | s front c c' x y e es v w h1 h2 h3 =>
    refine recover (ll := (x, y, ' ')) (fr hs) (isSyllableOf_iff.1 h2) (cons (hsyl h3) het) h hw he hd hh ?_
    intro X g _ e2 e3 e4 e5
    right
    obtain ⟨g1, g2⟩ := good_rf g e5 (isSyllableOf_decompose h3)
    refine ⟨lemS, by simp [lemRules], [(front ++ [c], e :: es)], ?_, by simp⟩
    have hnb : X.last ≠ '벗' := by
      intro e'
      have hdec := g.last
      have hk : decomposeList '벗' = .ok ('ㅂ', 'ㅓ', 'ㅅ') := by decide +kernel
      rw [e', e4, hk] at hdec
      have := congrArg (fun p : Jamo => p.2.2) (Except.ok.inj hdec)
      exact absurd (show 'ㅅ' = ' ' from this) (by decide)
    unfold lemS
    rw [if_pos ⟨⟨by rw [e4], hnb⟩, by simp [rf0, g1]⟩, e4]
    dsimp only
    rw [isSyllableOf_iff.1 h1, e2, e5]; rfl
  | peo front es =>
    refine recover (ll := ('ㅍ', 'ㅓ', ' ')) (fr hs) (show compose 'ㅍ' 'ㅓ' ' ' = .ok '퍼' by decide +kernel) het h hw he hd hh ?_
    intro X g _ e2 e3 e4 e5
    right
    refine ⟨lemPeo, by simp [lemRules], [(front ++ ['푸'], '어' :: es)], ?_, by simp⟩
    have ho : X.lOpen = '퍼' := by
      have := g.lOpen
      rw [e4] at this
      exact (Except.ok.inj ((show compose 'ㅍ' 'ㅓ' ' ' = .ok '퍼' by decide +kernel).symm.trans this)).symm
    unfold lemPeo
    rw [if_pos ho, e4]
    dsimp only
    rw [show compose 'ㅇ' 'ㅓ' ' ' = .ok '어' by decide +kernel, e2, e5]; rfl
  | u front c c' x e es w h1 h2 h3 =>
    refine recover (ll := (x, 'ㅝ', w)) (fr hs) (isSyllableOf_iff.1 h2) het h hw he hd hh ?_
    intro X g _ e2 e3 e4 e5
    right
    refine ⟨lemU, by simp [lemRules], [(front ++ [c], e :: es)], ?_, by simp⟩
    unfold lemU
    rw [if_pos (by rw [e4])]
    unfold lemVowel
    rw [e4]
    dsimp only
    rw [isSyllableOf_iff.1 h1]
    dsimp only
    rw [isSyllableOf_iff.1 h3, e2, e5]; rfl
  | o front c c' x e es w h1 h2 h3 =>
    refine recover (ll := (x, 'ㅘ', w)) (fr hs) (isSyllableOf_iff.1 h2) het h hw he hd hh ?_
    intro X g _ e2 e3 e4 e5
    right
    refine ⟨lemO, by simp [lemRules], [(front ++ [c], e :: es)], ?_, by simp⟩
    unfold lemO
    rw [if_pos (by rw [e4])]
    unfold lemVowel
    rw [e4]
    dsimp only
    rw [isSyllableOf_iff.1 h1]
    dsimp only
    rw [isSyllableOf_iff.1 h3, e2, e5]; rfl
  | eu front c c' x e es v w hv h1 h2 h3 =>
    refine recover (ll := (x, v, w)) (fr hs) (isSyllableOf_iff.1 h2) het h hw he hd hh ?_
    intro X g _ e2 e3 e4 e5
    right
    refine ⟨lemEu, by simp [lemRules], [(front ++ [c], e :: es)], ?_, by simp⟩
    unfold lemEu
    rw [e4]
    dsimp only
    rw [if_pos hv.symm]
    unfold lemVowel
    rw [e4]
    dsimp only
    rw [isSyllableOf_iff.1 h1]
    dsimp only
    rw [isSyllableOf_iff.1 h3, e2, e5]; rfl
  | euOpen front c x y e es v w hv h1 h3 =>
    refine recover (ll := (x, y, ' ')) (fr hs) (isSyllableOf_iff.1 h1) (cons (hsyl h3) het) h hw he hd hh ?_
    intro X g e1 e2 e3 e4 e5
    right
    obtain ⟨g1, g2⟩ := good_rf g e5 (isSyllableOf_decompose h3)
    refine ⟨lemEu2, by simp [lemRules], [(front ++ [c, '으'], e :: es)], ?_, by simp⟩
    unfold lemEu2
    rw [if_pos ⟨by rw [e4], by simp [rf0, g1], by simpa [rf1, g1] using hv⟩, e1, e5]
    simp
  | ha front c' e es w h2 h3 =>
    refine recover (ll := ('ㅎ', 'ㅐ', w)) (fr hs) (isSyllableOf_iff.1 h2) het h hw he hd hh ?_
    intro X g e1 e2 e3 e4 e5
    right
    refine ⟨lemHa, by simp [lemRules], [(front ++ ['하'], e :: es)], ?_, by simp⟩
    unfold lemHa
    rw [if_pos ⟨by rw [e4], by rw [e4]⟩, e4]
    dsimp only
    rw [isSyllableOf_iff.1 h3, e2, e5]; rfl
  | hDrop front c c' x v _ hv h1 h2 hsy =>
    refine recover (ll := (x, v, ' ')) (fr hs) (isSyllableOf_iff.1 h2) hsy h hw he hd hh ?_
    intro X g e1 e2 e3 e4 e5
    right
    refine ⟨lemHDrop, by simp [lemRules], [(front ++ [c], ending)], ?_, by simp⟩
    unfold lemHDrop
    rw [if_pos ⟨by unfold hJong; rw [e4]; exact Or.inl rfl, by rw [e4]; exact hv⟩, e4]
    dsimp only
    rw [isSyllableOf_iff.1 h1, e2, e5, if_pos rfl]; rfl
  | hMerge front c c' x e es v v' w hv hw' hf h1 h2 h3 =>
    refine recover (ll := (x, v', w)) (fr hs) (isSyllableOf_iff.1 h2) het h hw he hd hh ?_
    intro X g e1 e2 e3 e4 e5
    right
    refine ⟨lemHMerge, by simp [lemRules], [(front ++ [c], e :: es)], ?_, by simp⟩
    have hvv : (if v' = 'ㅔ' then 'ㅓ' else 'ㅏ') = v := by rcases hv with ⟨rfl, rfl⟩ | ⟨rfl, rfl⟩ <;> rfl
    have hst : hMergeStem X = .ok (front ++ [c]) := by
      unfold hMergeStem
      rw [e4, e2]
      dsimp only
      rw [if_neg hf, hvv, isSyllableOf_iff.1 h1]; rfl
    unfold lemHMerge
    rw [if_pos ⟨by unfold hJong; rw [e4]; simpa using hw', by rw [e4]; exact hv.imp (·.2) (·.2)⟩, hst, e4]
    dsimp only
    rw [hvv, isSyllableOf_iff.1 h3, e5]; rfl
  | hMergeGeu front c' e es v v' w hv hw' h2 h3 =>
    have hfs : ∀ c ∈ front ++ ['그'], Syllable c := by
      intro c hc
      exact hs c (by simp at hc ⊢; rcases hc with h | h <;> simp [h])
    have := recover (front := front ++ ['그']) (last := c') (ll := ('ㄹ', v', w)) (stem := front ++ ['그', '렇']) hfs (isSyllableOf_iff.1 h2) het h (by simpa using hw) he hd hh ?_
    · simpa using this
    intro X g e1 e2 e3 e4 e5
    right
    refine ⟨lemHMerge, by simp [lemRules], [(front ++ ['그', '렇'], e :: es)], ?_, by simp⟩
    have hvv : (if v' = 'ㅔ' then 'ㅓ' else 'ㅏ') = v := by rcases hv with ⟨rfl, rfl⟩ | ⟨rfl, rfl⟩ <;> rfl
    have hst : hMergeStem X = .ok (front ++ ['그', '렇']) := by
      unfold hMergeStem
      rw [e4, e2]
      dsimp only
      rw [if_pos ⟨by simp, rfl⟩]; simp
    unfold lemHMerge
    rw [if_pos ⟨by unfold hJong; rw [e4]; simpa using hw', by rw [e4]; exact hv.imp (·.2) (·.2)⟩, hst, e4]
    dsimp only
    rw [hvv, isSyllableOf_iff.1 h3, e5]; rfl
  | i front c c' x e es w hw' h1 h2 h3 =>
    refine recover (ll := (x, 'ㅕ', w)) (fr hs) (isSyllableOf_iff.1 h2) het h hw he hd hh ?_
    intro X g _ e2 e3 e4 e5
    right
    refine ⟨lemI, by simp [lemRules], [(front ++ [c], e :: es)], ?_, by simp⟩
    unfold lemI
    rw [e4]
    dsimp only
    rw [if_pos ⟨by simp only [List.mem_cons, List.not_mem_nil, or_false] at hw'; rcases hw' with h | h | h <;> simp [h], rfl⟩]
    unfold lemVowel
    rw [e4]
    dsimp only
    rw [isSyllableOf_iff.1 h1]
    dsimp only
    rw [isSyllableOf_iff.1 h3, e2, e5]; rfl

end Lemma
