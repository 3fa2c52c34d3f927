import Verif.Proofs.MaxLR2
import Verif.Proofs.Text
import Mathlib.Data.List.Forall2
import Mathlib.Tactic.NormNum
/-! C62: which left and right words `MaxLRScoreTokenizer` chooses, and how the rest of the eojeol is tokenised. -/
set_option linter.unusedVariables false
set_option linter.unusedSimpArgs false
namespace Props
open Py MaxLR LRSpec

/-! ### the specification determines the tokens -/

private theorem wf_unique {α : Type} (R : α → α → Prop) (hirr : ∀ a, ¬ R a a) (has : ∀ a b, R a b → ¬ R b a) (S S' : α → Prop)
    (l : List α) (hl : l.Pairwise R) (hS : ∀ a, S a → a ∈ l) (hS' : ∀ a, S' a → a ∈ l)
    (step : ∀ a ∈ l, (∀ b ∈ l, R b a → (S b ↔ S' b)) → (S a ↔ S' a)) : ∀ a, S a ↔ S' a := by
  have key : ∀ (n : Nat) (u v : List α), u.length = n → l = u ++ v → ∀ a ∈ u, (S a ↔ S' a) := by
    intro n
    induction n with
    | zero => intro u v hu _ a ha; rw [List.length_eq_zero_iff.1 hu] at ha; cases ha
    | succ n ih =>
      intro u v hu he a ha
      obtain ⟨u', x, rfl⟩ : ∃ u' x, u = u' ++ [x] :=
        ⟨u.dropLast, u.getLast (by intro h; rw [h] at hu; cases hu), (List.dropLast_append_getLast _).symm⟩
      have ih' := ih u' (x :: v) (by simpa using hu) (by rw [he]; simp)
      rcases List.mem_append.1 ha with ha | ha
      · exact ih' a ha
      · rw [List.mem_singleton] at ha
        subst ha
        have he' : l = u' ++ a :: v := by rw [he]; simp
        refine step a (by rw [he']; simp) (fun b hb hR => ?_)
        rw [he'] at hb hl
        rcases List.mem_append.1 hb with hb | hb
        · exact ih' b hb
        · rcases List.mem_cons.1 hb with rfl | hb
          · exact absurd hR (hirr b)
          · exact absurd hR (has a b ((List.pairwise_cons.1 (List.pairwise_append.1 hl).2.1).1 b hb))
  intro a
  by_cases ha : a ∈ l
  · exact key l.length l [] rfl (by simp) a ha
  · exact ⟨fun h => absurd (hS a h) ha, fun h => absurd (hS' a h) ha⟩

section
variable (g : Config) (t : Str)

private theorem passing_unique (ss : List Span) (hp : ss.Pairwise (Above g t)) (hk : ∀ s, s ∈ ss ↔ Kept g t s) (S S' : Span → Prop)
    (h : Passing g t S) (h' : Passing g t S') : ∀ s, S s ↔ S' s := by
  have hb := sorted_before g t ss hp (fun s hs => ((hk s).1 hs).1.h1)
  refine wf_unique (Before g t) (fun _ => before_irrefl) (fun _ _ => before_asymm) S S' _ hb
    (fun a ha => mem_sorted.2 ((hk a).2 ((h a).1 ha).1)) (fun a ha => mem_sorted.2 ((hk a).2 ((h' a).1 ha).1)) ?_
  intro a ha ih
  rw [h a, h' a]
  have : ∀ w, Kept g t w → (RunsInto g t (S w ∧ Before g t w a) a w ↔ RunsInto g t (S' w ∧ Before g t w a) a w) := by
    intro w hw
    refine runsInto_congr ?_ a w
    constructor
    · rintro ⟨h1, h2⟩; exact ⟨(ih w (mem_sorted.2 ((hk w).2 hw)) h2).1 h1, h2⟩
    · rintro ⟨h1, h2⟩; exact ⟨(ih w (mem_sorted.2 ((hk w).2 hw)) h2).2 h1, h2⟩
  constructor
  · rintro ⟨h1, h2⟩
    exact ⟨h1, fun hlt ⟨w, hw, hr⟩ => h2 hlt ⟨w, hw, (this w hw).2 hr⟩⟩
  · rintro ⟨h1, h2⟩
    exact ⟨h1, fun hlt ⟨w, hw, hr⟩ => h2 hlt ⟨w, hw, (this w hw).1 hr⟩⟩

private theorem chosen_unique (sel : List Span) (hp : sel.Pairwise (Before g t)) (B B' : Span → Prop)
    (h : Chosen g t (· ∈ sel) B) (h' : Chosen g t (· ∈ sel) B') : ∀ s, B s ↔ B' s := by
  have hle : TotalPre (fun a b : Span => decide (value g t b ≤ value g t a)) := by
    refine ⟨fun a b c h1 h2 => ?_, fun a b => ?_⟩
    · simp only [decide_eq_true_eq] at *; exact le_trans h2 h1
    · simp only [decide_eq_true_eq] at *; exact le_total _ _
  have hb : (sorted (fun a b : Span => decide (value g t b ≤ value g t a)) sel).Pairwise (Better g t) := by
    refine List.Pairwise.imp ?_ (sorted_stable hle hp)
    rintro a b ⟨k1, k2⟩
    simp only [decide_eq_true_eq] at k1 k2
    rcases lt_or_eq_of_le k1 with h | h
    · exact .inl h
    · exact .inr ⟨h, k2 h.ge⟩
  refine wf_unique (Better g t) (fun _ => better_irrefl) (fun _ _ => better_asymm) B B' _ hb
    (fun a ha => mem_sorted.2 ((h a).1 ha).1) (fun a ha => mem_sorted.2 ((h' a).1 ha).1) ?_
  intro a ha ih
  rw [h a, h' a]
  constructor
  · rintro ⟨h1, h2⟩
    exact ⟨h1, fun d hd hbt => h2 d ((ih d (mem_sorted.2 ((h' d).1 hd).1) hbt).2 hd) hbt⟩
  · rintro ⟨h1, h2⟩
    exact ⟨h1, fun d hd hbt => h2 d ((ih d (mem_sorted.2 ((h d).1 hd).1) hbt).1 hd) hbt⟩

private theorem list_unique (ps qs : List Span) (hc : ∀ s ∈ ps, s.1 < s.2.2) (h1 : ps.Pairwise (fun a b => a.2.2 ≤ b.1)) (h2 : qs.Pairwise (fun a b => a.2.2 ≤ b.1))
    (hm : ∀ s, s ∈ ps ↔ s ∈ qs) : ps = qs := by
  have hle : TotalPre (fun a b : Span => decide (a.1 ≤ b.1)) := by
    refine ⟨fun a b c h1 h2 => ?_, fun a b => ?_⟩
    · simp only [decide_eq_true_eq] at *; omega
    · simp only [decide_eq_true_eq] at *; omega
  have hstrict : ∀ l : List Span, (∀ s ∈ l, s.1 < s.2.2) → l.Pairwise (fun a b => a.2.2 ≤ b.1) →
      l.Pairwise (fun a b => decide (a.1 ≤ b.1) = true ∧ decide (b.1 ≤ a.1) = false) := by
    intro l hl hp
    refine List.Pairwise.imp_of_mem ?_ hp
    intro a b ha _ hab
    have := hl a ha
    simp only [decide_eq_true_eq, decide_eq_false_iff_not]
    omega
  have hnd : ∀ l : List Span, (∀ s ∈ l, s.1 < s.2.2) → l.Pairwise (fun a b => a.2.2 ≤ b.1) → l.Nodup := by
    intro l hl hp
    refine List.Pairwise.imp_of_mem ?_ hp
    rintro a b ha _ hab rfl
    have := hl a ha
    omega
  have hc' : ∀ s ∈ qs, s.1 < s.2.2 := fun s hs => hc s ((hm s).2 hs)
  have hperm : qs.Perm ps := (List.perm_ext_iff_of_nodup (hnd qs hc' h2) (hnd ps hc h1)).2 (fun s => (hm s).symm)
  rw [← sorted_eq_of_perm hle hperm (hstrict ps hc h1), sorted_eq_of_perm hle (.refl _) (hstrict qs hc' h2)]

variable (hz : ¬ DividesByZero g t)
include hz

/-- the choice exists, is unique, and determines the result -/
private theorem eojeol_tokens : ∃ ps : List Span, ps.Pairwise (fun a b => a.2.2 ≤ b.1) ∧ (∀ s ∈ ps, IsCand g t s) ∧
    (∀ out, Tokens g t out ↔ (ps = [] ∧ GapTokens g t out ∨ From g t 0 ps out)) ∧
    (∀ out, tokenizeEojeol g t = .ok out ↔ (ps = [] ∧ GapTokens g t out ∨ From g t 0 ps out)) ∧
    (∀ e, tokenizeEojeol g t = .error e → e = .attributeError) := by
  obtain ⟨ss, h1, h2, h3⟩ := (kept_spec g t).2 hz
  obtain ⟨sel, k1, k2, k3⟩ := score_spec g t ss h2 h3
  have hsel : ∀ s ∈ sel, IsCand g t s := fun s hs => ((k3 s).1 hs).1.1
  obtain ⟨ps, p1, p2, p3⟩ := findBest_chosen g t sel k2 (fun s hs => by have := (hsel s hs).h1; have := (hsel s hs).h2; omega)
  have hps : ∀ s ∈ ps, IsCand g t s := fun s hs => hsel s ((p2 s).1 hs).1
  refine ⟨ps, p3, hps, ?_, ?_⟩
  · intro out
    constructor
    · rintro ⟨S, B, q1, q2, qs, q3, q4, q5⟩
      have e1 : S = (· ∈ sel) := funext fun s => propext (passing_unique g t ss h2 h3 S _ q1 k3 s)
      rw [e1] at q2
      have e2 := chosen_unique g t sel k2 B _ q2 p2
      have e3 : ps = qs := list_unique ps qs (fun s hs => by have := (hps s hs).h1; have := (hps s hs).h2; omega) p3 q3
        (fun s => by rw [q4, e2])
      rw [e3]; exact q5
    · intro h
      exact ⟨_, _, k3, p2, ps, p3, fun s => Iff.rfl, h⟩
  · have htok : tokenizeEojeol g t = (choosePost g t (ps.map (valued g t))).bind (fun post => .ok (toks post)) := by
      unfold tokenizeEojeol
      rw [h1]
      show (choosePost g t (findBest (score g (ss.map (candOf g t 0))))).bind _ = _
      rw [k1, p1]
      rfl
    rw [htok]
    cases ps with
    | nil =>
      have : choosePost g t (([] : List Span).map (valued g t)) = baseSub g t 0 := rfl
      rw [this, baseSub_eq]
      constructor
      · intro out
        rw [gapTokens_iff]
        have hno : ¬ From g t 0 [] out := by intro h; cases h
        by_cases hf : fine g t = true
        · rw [if_pos hf]
          show (Except.ok (toks (gapC g t 0)) : PyM _) = .ok out ↔ _
          rw [toks_gapC, Except.ok.injEq]
          constructor
          · intro h; exact .inl ⟨rfl, hf, h.symm⟩
          · rintro (⟨_, _, h⟩ | h)
            · exact h.symm
            · exact absurd h hno
        · rw [if_neg hf]
          constructor
          · intro h; cases h
          · rintro (⟨_, h, _⟩ | h)
            · exact absurd h hf
            · exact absurd h hno
      · intro e h
        by_cases hf : fine g t = true
        · rw [if_pos hf] at h; cases h
        · rw [if_neg hf] at h; cases h; rfl
    | cons s ps =>
      have : choosePost g t ((s :: ps).map (valued g t)) = postprocess g t ((s :: ps).map (valued g t)) := rfl
      rw [this]
      obtain ⟨r1, r2⟩ := postprocess_eq g t s ps hps p3 0
      constructor
      · intro out
        rw [from_iff g t ps s 0 0 out]
        cases hf : fineAll g t 0 (s :: ps) 0 with
        | true =>
          obtain ⟨cs, c1, c2⟩ := r1 hf
          rw [c1]
          show (Except.ok (toks cs) : PyM _) = .ok out ↔ _
          rw [c2, Except.ok.injEq]
          constructor
          · intro h; exact .inr ⟨rfl, h.symm⟩
          · rintro (⟨h, _⟩ | ⟨_, h⟩)
            · cases h
            · exact h.symm
        | false =>
          rw [r2 hf]
          constructor
          · intro h; cases h
          · rintro (⟨h, _⟩ | ⟨h, _⟩)
            · cases h
            · cases h
      · intro e h
        cases hf : fineAll g t 0 (s :: ps) 0 with
        | true =>
          obtain ⟨cs, c1, c2⟩ := r1 hf
          rw [c1] at h; cases h
        | false =>
          rw [r2 hf] at h; cases h; rfl

end

private theorem eojeol_zero (g : Config) (t : Str) (hz : DividesByZero g t) : tokenizeEojeol g t = .error .zeroDivision := by
  unfold tokenizeEojeol
  rw [(kept_spec g t).1 hz]
  rfl

private theorem mapM_cases {α β : Type} (f : α → PyM β) (l : List α) :
    (∀ outs, l.mapM f = .ok outs ↔ List.Forall₂ (fun a b => f a = .ok b) l outs) ∧
    (∀ e, l.mapM f = .error e ↔ ∃ pre w post, l = pre ++ w :: post ∧ (∀ u ∈ pre, ∃ b, f u = .ok b) ∧ f w = .error e) := by
  induction l with
  | nil =>
    constructor
    · intro outs
      rw [List.mapM_nil]
      exact ⟨fun h => by cases h; exact .nil, fun h => by cases h; rfl⟩
    · intro e
      rw [List.mapM_nil]
      exact ⟨fun h => by (cases h), fun ⟨pre, w, post, h, _⟩ => by (cases pre <;> cases h)⟩
  | cons a l ih =>
    rw [List.mapM_cons]
    cases ha : f a with
    | error e0 =>
      constructor
      · intro outs
        constructor
        · intro h; cases h
        · intro h
          cases h with
          | cons h1 h2 => rw [ha] at h1; cases h1
      · intro e
        constructor
        · intro h; cases h; exact ⟨[], a, l, rfl, fun _ h => by (cases h), ha⟩
        · rintro ⟨pre, w, post, h, h1, h2⟩
          cases pre with
          | nil => cases h; rw [ha] at h2; cases h2; rfl
          | cons p pre =>
            cases h
            obtain ⟨b, hb⟩ := h1 a List.mem_cons_self
            rw [ha] at hb; cases hb
    | ok b =>
      have hr : ∀ e, l.mapM f = .error e → (do let rest ← l.mapM f; pure (b :: rest) : PyM (List β)) = .error e := by
        intro e h; rw [h]; rfl
      have hk : ∀ bs, l.mapM f = .ok bs → (do let rest ← l.mapM f; pure (b :: rest) : PyM (List β)) = .ok (b :: bs) := by
        intro e h; rw [h]; rfl
      constructor
      · intro outs
        constructor
        · intro h
          cases hl : l.mapM f with
          | error e => have := (hr e hl).symm.trans h; cases this
          | ok bs =>
            have := (hk bs hl).symm.trans h
            cases this
            exact .cons ha ((ih.1 bs).1 hl)
        · intro h
          cases h with
          | cons h1 h2 =>
            rw [ha] at h1; cases h1
            exact hk _ ((ih.1 _).2 h2)
      · intro e
        constructor
        · intro h
          cases hl : l.mapM f with
          | error e' =>
            have := (hr e' hl).symm.trans h
            cases this
            obtain ⟨pre, w, post, rfl, h1, h2⟩ := (ih.2 e).1 hl
            refine ⟨a :: pre, w, post, rfl, ?_, h2⟩
            intro u hu
            rcases List.mem_cons.1 hu with rfl | hu
            · exact ⟨b, ha⟩
            · exact h1 u hu
          | ok bs => have := (hk bs hl).symm.trans h; cases this
        · rintro ⟨pre, w, post, h, h1, h2⟩
          cases pre with
          | nil => cases h; rw [ha] at h2; cases h2
          | cons p pre =>
            cases h
            exact hr e ((ih.2 e).2 ⟨pre, w, post, rfl, fun u hu => h1 u (List.mem_cons_of_mem _ hu), h2⟩)

/-- C62: for all dictionaries, preferences and thresholds. Tokenising a sentence succeeds with `out` exactly when `out` lists, word by word, the tokens the
    specification `LRSpec.Tokens` gives and no word leads to a division by zero; otherwise the first word at which this fails raises ZeroDivisionError if it
    leads to a division by zero, and AttributeError if it has no tokens. -/
theorem C62_tokens (g : Config) (sent : Str) :
    (∀ out, MaxLR.tokenize g sent = .ok out ↔
      ∃ outs, List.Forall₂ (fun w ts => ¬ DividesByZero g w ∧ Tokens g w ts) (splitWs sent) outs ∧ out = outs.flatten) ∧
    (∀ e, MaxLR.tokenize g sent = .error e ↔ ∃ pre w post, splitWs sent = pre ++ w :: post ∧ (∀ u ∈ pre, ¬ DividesByZero g u ∧ ∃ ts, Tokens g u ts) ∧
      (DividesByZero g w ∧ e = .zeroDivision ∨ ¬ DividesByZero g w ∧ (∀ ts, ¬ Tokens g w ts) ∧ e = .attributeError)) := by
  have hone : ∀ t out, tokenizeEojeol g t = .ok out ↔ ¬ DividesByZero g t ∧ Tokens g t out := by
    intro t out
    by_cases hz : DividesByZero g t
    · rw [eojeol_zero g t hz]
      exact ⟨fun h => by (cases h), fun h => absurd hz h.1⟩
    · obtain ⟨ps, _, _, h1, h2, _⟩ := eojeol_tokens g t hz
      rw [h1, h2]
      exact ⟨fun h => ⟨hz, h⟩, fun h => h.2⟩
  have herr : ∀ t e, tokenizeEojeol g t = .error e ↔
      (DividesByZero g t ∧ e = .zeroDivision ∨ ¬ DividesByZero g t ∧ (∀ ts, ¬ Tokens g t ts) ∧ e = .attributeError) := by
    intro t e
    by_cases hz : DividesByZero g t
    · rw [eojeol_zero g t hz, Except.error.injEq]
      exact ⟨fun h => .inl ⟨hz, h.symm⟩, fun h => (h.resolve_right (fun h => h.1 hz)).2.symm⟩
    · constructor
      · intro h
        obtain ⟨ps, _, _, _, _, h3⟩ := eojeol_tokens g t hz
        refine .inr ⟨hz, fun ts hts => ?_, h3 e h⟩
        rw [(hone t ts).2 ⟨hz, hts⟩] at h; cases h
      · rintro (⟨h, _⟩ | ⟨_, h, rfl⟩)
        · exact absurd h hz
        · cases hx : tokenizeEojeol g t with
          | ok o => exact absurd ((hone t o).1 hx).2 (h o)
          | error e' =>
            obtain ⟨ps, _, _, _, _, h3⟩ := eojeol_tokens g t hz
            rw [h3 e' hx]
  obtain ⟨m1, m2⟩ := mapM_cases (tokenizeEojeol g) (splitWs sent)
  simp only [hone, herr] at m1 m2
  unfold MaxLR.tokenize
  constructor
  · intro out
    constructor
    · intro h
      cases hm : (splitWs sent).mapM (tokenizeEojeol g) with
      | error e => rw [hm] at h; cases h
      | ok os => rw [hm] at h; cases h; exact ⟨os, (m1 os).1 hm, rfl⟩
    · rintro ⟨outs, h, rfl⟩
      rw [(m1 outs).2 h]; rfl
  · intro e
    have : (do let ws ← (splitWs sent).mapM (tokenizeEojeol g); .ok ws.flatten : PyM _) = .error e ↔ (splitWs sent).mapM (tokenizeEojeol g) = .error e := by
      cases (splitWs sent).mapM (tokenizeEojeol g) with
      | error e' => exact ⟨fun h => by (cases h; rfl), fun h => by (cases h; rfl)⟩
      | ok os => exact ⟨fun h => by (cases h), fun h => by (cases h)⟩
    refine Iff.trans this ((m2 e).trans ?_)
    have hex : ∀ u, (∃ b, ¬ DividesByZero g u ∧ Tokens g u b) ↔ ¬ DividesByZero g u ∧ ∃ ts, Tokens g u ts :=
      fun u => ⟨fun ⟨b, x, y⟩ => ⟨x, b, y⟩, fun ⟨x, b, y⟩ => ⟨b, x, y⟩⟩
    simp only [hex]

/-- C62: no division by zero unless some left word scores exactly −0.00001 -/
theorem C62_no_zero_division (g : Config) (hz : ∀ e ∈ g.Dl, e.2 ≠ -(1/100000)) (w : Str) : ¬ DividesByZero g w := by
  rintro ⟨s, d, _, hd, _, hn, _⟩
  obtain ⟨v, hv⟩ := Option.isSome_iff_exists.1 hd.left
  have : lsc g w d = v := by
    unfold lsc Dict.getD
    rw [hv]; rfl
  exact hz _ (Dict.mem_of_get? hv) (this.symm.trans hn.2.2.2)

/-- C62: the constructor adds each preferred word that is not in the dictionary with score 1 and leaves all other scores as they are. -/
theorem C62_preferred (Dl Dr Pl Pr : Dict Str Rat) (a b c d : Rat) (w : Str) :
    let g := MaxLR.make Dl Dr Pl Pr a b c d
    Dict.get? g.Dl w = (match Dict.get? Dl w with | some x => some x | none => if w ∈ Dict.keys Pl then some 1 else none) ∧
    Dict.get? g.Dr w = (match Dict.get? Dr w with | some x => some x | none => if w ∈ Dict.keys Pr then some 1 else none) ∧
    g.Pl = Pl ∧ g.Pr = Pr ∧ g.maxLDiff = a ∧ g.maxLRatio = b ∧ g.ensL = c ∧ g.ensLRDiff = d := by
  have go : ∀ (ks : List Str) (D : Dict Str Rat), Dict.get? (ks.foldl (fun d w => if Dict.has d w then d else Dict.set d w 1) D) w =
      (match Dict.get? D w with | some x => some x | none => if w ∈ ks then some 1 else none) := by
    intro ks
    induction ks with
    | nil => intro D; cases h : Dict.get? D w <;> simp [h]
    | cons k ks ih =>
      intro D
      rw [List.foldl_cons, ih]
      by_cases hk : Dict.has D k = true
      · rw [if_pos hk]
        cases h : Dict.get? D w with
        | some x => rfl
        | none =>
          have hne : w ≠ k := by rintro rfl; unfold Dict.has at hk; rw [h] at hk; cases hk
          simp [hne]
      · rw [if_neg hk, Dict.get?_set]
        by_cases hwk : w = k
        · subst hwk
          have : Dict.get? D w = none := by
            cases h : Dict.get? D w with
            | none => rfl
            | some x => exact absurd (by unfold Dict.has; rw [h]; rfl) hk
          simp [this]
        · have hkw : ¬ k = w := fun h => hwk h.symm
          cases h : Dict.get? D w <;> simp [h, hwk, hkw]
  exact ⟨go _ _, go _ _, rfl, rfl, rfl, rfl, rfl, rfl⟩

/-- C62: the constructor. It raises ZeroDivisionError iff a graph is given with a non-empty row whose counts sum to 0, or whatever the builder
    raises; otherwise the score of a word is the caller's (1 if the caller gave words without scores), else the builder's, else 1 if the word is preferred, and
    each row of the graph is divided by its sum. Default thresholds are 0.3, 0.5, 0.5, 0.3. -/
theorem C62_construct (builder : Option (Dict Str (Dict Str Rat) → PyM (Dict Str Rat × Dict Str Rat))) (graph : Option (Dict Str (Dict Str Rat)))
    (Dl Dr : Option Words) (Pl Pr : Option (Dict Str Rat)) (hwf : ∀ d, (Dl = some (.dict d) ∨ Dr = some (.dict d)) → Dict.WF d) :
    let zero := ∃ e ∈ graph.getD [], e.2 ≠ [] ∧ (e.2.map (·.2)).sum = 0
    let given := fun (D : Option Words) (w : Str) => match D with
      | none => none
      | some (.dict d) => Dict.get? d w
      | some (.words ws) => if w ∈ ws then some (1 : Rat) else none
    (zero → construct builder graph Dl Dr Pl Pr = .error .zeroDivision) ∧
    (¬ zero → ∀ b, builder = some b → ∀ e, b (graph.getD []) = .error e → construct builder graph Dl Dr Pl Pr = .error e) ∧
    (¬ zero → ∀ d : Dict Str Rat × Dict Str Rat, (builder = none ∧ d = ([], []) ∨ ∃ b, builder = some b ∧ b (graph.getD []) = .ok d) →
      ∃ g norm, construct builder graph Dl Dr Pl Pr = .ok (g, norm) ∧
        (∀ w, Dict.get? g.Dl w = ((given Dl w).or (Dict.get? d.1 w)).or (if w ∈ Dict.keys (Pl.getD []) then some 1 else none)) ∧
        (∀ w, Dict.get? g.Dr w = ((given Dr w).or (Dict.get? d.2 w)).or (if w ∈ Dict.keys (Pr.getD []) then some 1 else none)) ∧
        g.Pl = Pl.getD [] ∧ g.Pr = Pr.getD [] ∧ (g.maxLDiff, g.maxLRatio, g.ensL, g.ensLRDiff) = (3/10, 1/2, 1/2, 3/10) ∧
        norm = (graph.getD []).map (fun e => (e.1, e.2.map (fun x => (x.1, x.2 / (e.2.map (·.2)).sum))))) := by
  intro zero given
  have hrow : ∀ r : Dict Str Rat, (r ≠ [] ∧ (r.map (·.2)).sum = 0 → normRow r = .error .zeroDivision) ∧
      (¬ (r ≠ [] ∧ (r.map (·.2)).sum = 0) → normRow r = .ok (r.map (fun x => (x.1, x.2 / (r.map (·.2)).sum)))) := by
    intro r
    unfold normRow
    exact ⟨fun h => if_pos ⟨h.2, h.1⟩, fun h => if_neg (fun k => h ⟨k.2, k.1⟩)⟩
  have hgraph : ∀ G : Dict Str (Dict Str Rat), ((∃ e ∈ G, e.2 ≠ [] ∧ (e.2.map (·.2)).sum = 0) → normGraph G = .error .zeroDivision) ∧
      (¬ (∃ e ∈ G, e.2 ≠ [] ∧ (e.2.map (·.2)).sum = 0) → normGraph G = .ok (G.map (fun e => (e.1, e.2.map (fun x => (x.1, x.2 / (e.2.map (·.2)).sum)))))) := by
    intro G
    unfold normGraph
    induction G with
    | nil => exact ⟨fun ⟨e, he, _⟩ => by (cases he), fun _ => rfl⟩
    | cons x G ih =>
      by_cases hx : x.2 ≠ [] ∧ (x.2.map (·.2)).sum = 0
      · refine ⟨fun _ => ?_, fun h => absurd ⟨x, List.mem_cons_self, hx⟩ h⟩
        rw [List.mapM_cons, (hrow x.2).1 hx]; rfl
      · rw [List.mapM_cons, (hrow x.2).2 hx]
        refine ⟨fun h => ?_, fun h => ?_⟩
        · obtain ⟨e, he, h1⟩ := h
          rcases List.mem_cons.1 he with rfl | he
          · exact absurd h1 hx
          · rw [ih.1 ⟨e, he, h1⟩]; rfl
        · rw [ih.2 (fun ⟨e, he, h1⟩ => h ⟨e, List.mem_cons_of_mem _ he, h1⟩)]; rfl
  have hupd : ∀ (e : Dict Str Rat), Dict.WF e → ∀ (d : Dict Str Rat) (w : Str), Dict.get? (update d e) w = (Dict.get? e w).or (Dict.get? d w) := by
    intro e
    unfold update
    induction e with
    | nil => intro _ d w; simp
    | cons kv e ih =>
      intro hw d w
      obtain ⟨k, v⟩ := kv
      have hw : (k :: e.map (·.1)).Nodup := hw
      rw [List.nodup_cons] at hw
      rw [List.foldl_cons, ih hw.2, Dict.get?_set, Dict.get?_cons]
      by_cases hk : k = w
      · subst hk
        rw [(Dict.get?_eq_none_iff e k).2 hw.1]
        simp
      · rw [if_neg hk, if_neg hk]
  have hset : ∀ (ws : List Str) (d : Dict Str Rat) (w : Str), Dict.get? (ws.foldl (fun d w => Dict.set d w 1) d) w = if w ∈ ws then some 1 else Dict.get? d w := by
    intro ws
    induction ws with
    | nil => intro d w; simp
    | cons k ws ih =>
      intro d w
      rw [List.foldl_cons, ih, Dict.get?_set]
      by_cases hk : w = k
      · subst hk; simp
      · have hk' : ¬ k = w := fun h => hk h.symm
        simp [hk, hk']
  have hgiven : ∀ D : Option Words, (∀ d, D = some (.dict d) → Dict.WF d) → Dict.WF (Words.scores D) ∧ ∀ w, Dict.get? (Words.scores D) w = given D w := by
    intro D hD
    cases D with
    | none => exact ⟨List.nodup_nil, fun _ => rfl⟩
    | some x => cases x with
      | dict d => exact ⟨hD d rfl, fun _ => rfl⟩
      | words ws =>
        refine ⟨?_, fun w => hset ws [] w⟩
        have : ∀ (ws : List Str) (d : Dict Str Rat), Dict.WF d → Dict.WF (ws.foldl (fun d w => Dict.set d w 1) d) := by
          intro ws
          induction ws with
          | nil => intro d h; exact h
          | cons k ws ih => intro d h; exact ih _ (Dict.WF.set h _ _)
        exact this ws [] List.nodup_nil
  have hlast : ∀ (D : Option Words) (hD : ∀ d, D = some (.dict d) → Dict.WF d) (d : Dict Str Rat) (x : Option Rat) (w : Str),
      (match Dict.get? (update d (Words.scores D)) w with | some x => some x | none => x) = ((given D w).or (Dict.get? d w)).or x := by
    intro D hD d x w
    rw [hupd _ (hgiven D hD).1, (hgiven D hD).2]
    cases (given D w).or (Dict.get? d w) <;> rfl
  refine ⟨fun hz => ?_, fun hz b hb e he => ?_, fun hz d hd => ?_⟩
  · unfold construct
    rw [(hgraph _).1 hz]
  · unfold construct
    rw [(hgraph _).2 hz, hb]
    show (b (graph.getD [])).map _ = _
    rw [he]; rfl
  · have hc : construct builder graph Dl Dr Pl Pr = .ok (make (update d.1 (Words.scores Dl)) (update d.2 (Words.scores Dr)) (Pl.getD []) (Pr.getD []) (3/10) (1/2) (1/2) (3/10),
        (graph.getD []).map (fun e => (e.1, e.2.map (fun x => (x.1, x.2 / (e.2.map (·.2)).sum))))) := by
      have hr : runBuilder builder (graph.getD []) = .ok d := by
        rcases hd with ⟨hb, rfl⟩ | ⟨b, hb, hd⟩
        · rw [hb]; rfl
        · rw [hb]; exact hd
      unfold construct
      rw [(hgraph _).2 hz, hr]; rfl
    have key := fun w => C62_preferred (update d.1 (Words.scores Dl)) (update d.2 (Words.scores Dr)) (Pl.getD []) (Pr.getD []) (3/10) (1/2) (1/2) (3/10) w
    refine ⟨_, _, hc, fun w => ?_, fun w => ?_, rfl, rfl, rfl, rfl⟩
    · rw [(key w).1, hlast Dl (fun d hd => hwf d (Or.inl hd))]
    · rw [(key w).2.1, hlast Dr (fun d hd => hwf d (Or.inr hd))]

/-! ### concrete -/

def lrDl : Dict Str Rat := [("학생".toList, 9/10), ("학생회".toList, 7/10), ("회의".toList, 6/10), ("의자".toList, 2/10)]
def lrConfig (Dr : Dict Str Rat) : Config := MaxLR.make lrDl Dr [] [] (3/10) (1/2) (1/2) (3/10)

/-- the scores meet the hypothesis -/
example (Dr : Dict Str Rat) : ∀ e ∈ (lrConfig Dr).Dl, e.2 ≠ -(1/100000) := by
  intro e he
  have : e ∈ lrDl := he
  simp only [lrDl, List.mem_cons, List.not_mem_nil, or_false] at this
  rcases this with rfl | rfl | rfl | rfl <;> norm_num
/-- 학생 loses to the longer 학생회 that scores nearly as well, 회의 to the better 학생회, and 학생회 alone (twice 0.7) is worth more than 학생회 with 의 -/
example : MaxLR.tokenize (lrConfig [("의".toList, 1/2)]) "학생회의자는".toList = .ok [("학생회".toList, .L), ("의자".toList, .L), ("는".toList, .L)] := by decide +kernel
/-- a left word scoring −0.00001 around a good one: the ratio does not exist -/
example : MaxLR.tokenize (MaxLR.make [("학생".toList, 9/10), ("학생회".toList, -1/100000)] [] [] [] (3/10) (1/2) (1/2) (3/10)) "나는 학생회의".toList = .error .zeroDivision := by
  decide +kernel
/-- the gap behind the last left word is a right word: AttributeError -/
example : MaxLR.tokenize (lrConfig [("의".toList, 1/2), ("에서".toList, 3/10)]) "학생회의에서".toList = .error .attributeError := by decide +kernel
set_option synthInstance.maxSize 1000 in
set_option synthInstance.maxHeartbeats 200000 in
/-- a builder's words, overridden by the caller's, which are given without scores; the graph is normalised -/
example : (construct (some (fun g => .ok ([("가".toList, 1/4), ("나".toList, 1/3)], (g.map (fun e => (e.1, 2)))))) (some [("다".toList, [("라".toList, 1), ("".toList, 3)])])
    (some (.words ["가".toList])) none none none).toOption.map (fun x => (x.1.Dl, x.1.Dr, x.2)) =
    some ([("가".toList, 1), ("나".toList, 1/3)], [("다".toList, 2)], [("다".toList, [("라".toList, 1/4), ("".toList, 3/4)])]) := by decide +kernel
/-- a row of zeros raises -/
example : (match construct none (some [("다".toList, [("라".toList, 0)])]) none none none none with | .error e => decide (e = .zeroDivision) | .ok _ => false) = true := by decide +kernel
/-- a preferred word enters the dictionary with score 1 -/
example : Dict.get? (MaxLR.make lrDl [] [("회".toList, 5)] [] 0 0 0 0).Dl "회".toList = some 1 := by decide +kernel

end Props
