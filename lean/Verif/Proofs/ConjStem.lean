import Verif.Model.ConjStem
import Verif.Proofs.ConjExact
/-! The surfaces of `_conjugate_stem`, exactly. -/
set_option linter.unusedSimpArgs false
set_option linter.unusedVariables false
namespace Lemma
open Py Hangle Spec

section
variable {front : Str} {c x y z : Char}

abbrev sctx (front : Str) (c x y z : Char) : SCtx := ⟨front ++ [c], front, c, (x, y, z)⟩

/-- a rule's surfaces: it does not raise and gives exactly `P` -/
def SGives (rule : SCtx → PyM (List Str)) (k : SCtx) (P : Str → Prop) : Prop := ∃ a, rule k = .ok a ∧ ∀ s, s ∈ a ↔ P s

theorem surfaces_ok (hx : x ∈ chosungList) (vfs : List (Char × Char)) (h : ∀ vf ∈ vfs, vf.1 ∈ jungsungList ∧ vf.2 ∈ jongsungList) :
    ∃ a, surfaces (sctx front c x y z) vfs = .ok a ∧ ∀ s, s ∈ a ↔ ∃ vf ∈ vfs, ∃ c', IsSyllableOf c' x vf.1 vf.2 ∧ s = front ++ [c'] := by
  induction vfs with
  | nil => exact ⟨[], rfl, by simp⟩
  | cons vf vfs ih =>
    obtain ⟨a, ha, hm⟩ := ih (fun v hv => h v (by simp [hv]))
    obtain ⟨hv, hf⟩ := h vf (by simp)
    obtain ⟨c', hc', _⟩ := compose_ok hx hv hf
    refine ⟨(front ++ [c']) :: a, ?_, ?_⟩
    · unfold surfaces surface
      dsimp only
      rw [map_of_ok hc']
      dsimp only
      rw [ha]; rfl
    · intro s
      rw [List.mem_cons, hm]
      constructor
      · rintro (rfl | ⟨v, hv, c'', h1, rfl⟩)
        · exact ⟨vf, by simp, c', isSyllableOf_iff.2 hc', rfl⟩
        · exact ⟨v, by simp [hv], c'', h1, rfl⟩
      · rintro ⟨v, hv, c'', h1, rfl⟩
        rcases List.mem_cons.1 hv with rfl | hv
        · rw [isSyllableOf_iff, hc'] at h1
          cases h1; exact .inl rfl
        · exact .inr ⟨v, hv, c'', h1, rfl⟩

theorem sgives_ite {Q : Prop} [Decidable Q] {k : SCtx} {m : SCtx → PyM (List Str)} {P : Str → Prop} (h : Q → SGives m k P) :
    SGives (fun k => if Q then m k else .ok []) k (fun s => Q ∧ P s) := by
  by_cases hq : Q
  · obtain ⟨a, ha, hm⟩ := h hq
    exact ⟨a, by simp [hq, ha], fun s => by rw [hm]; simp [hq]⟩
  · exact ⟨[], by simp [hq], fun s => by simp [hq]⟩

theorem sgives_congr {r : SCtx → PyM (List Str)} {k : SCtx} {P Q : Str → Prop} (h : SGives r k P) (hpq : ∀ s, P s ↔ Q s) : SGives r k Q := by
  obtain ⟨a, ha, hm⟩ := h
  exact ⟨a, ha, fun s => (hm s).trans (hpq s)⟩

theorem runStem_ok (k : SCtx) (rs : List (SCtx → PyM (List Str))) (P : (SCtx → PyM (List Str)) → Str → Prop) (h : ∀ r ∈ rs, SGives r k (P r)) :
    ∃ a, runStem k rs = .ok a ∧ ∀ s, s ∈ a ↔ ∃ r ∈ rs, P r s := by
  induction rs with
  | nil => exact ⟨[], rfl, by simp⟩
  | cons r rs ih =>
    obtain ⟨a, ha, hm⟩ := h r (by simp)
    obtain ⟨b, hb, hn⟩ := ih (fun r' hr' => h r' (by simp [hr']))
    exact ⟨a ++ b, by unfold runStem; rw [ha]; dsimp only; rw [hb]; rfl, fun s => by rw [List.mem_append, hm, hn]; simp⟩

private theorem two (a b : Prop) : (a ∨ b) = (a ∨ b) := rfl

theorem jong_mem : 'ㄹ' ∈ jongsungList ∧ 'ㄴ' ∈ jongsungList ∧ 'ㅂ' ∈ jongsungList ∧ 'ㅆ' ∈ jongsungList ∧ ' ' ∈ jongsungList := by decide
theorem jung_mem : 'ㅝ' ∈ jungsungList ∧ 'ㅘ' ∈ jungsungList ∧ 'ㅓ' ∈ jungsungList ∧ 'ㅐ' ∈ jungsungList ∧ 'ㅕ' ∈ jungsungList := by decide

/-- the surfaces of a stem: none of the rules raises, when the last syllable, and the one before a final 르, are complete -/
theorem conjugateStem_ok (hc : IsSyllableOf c x y z) (hq : c = '르' → ∀ q, front.getLast? = some q → Syllable q) :
    ∃ out, conjugateStem (front ++ [c]) = .ok out ∧ ∀ s, s ∈ out ↔ StemSurface front c x y z s := by
  have dc := isSyllableOf_decompose hc
  obtain ⟨⟨hx, hy, hz⟩, _, _⟩ := compose_inv (isSyllableOf_iff.1 hc)
  obtain ⟨j1, j2, j3, j4, j5⟩ := jong_mem
  obtain ⟨v1, v2, v3, v4, v5⟩ := jung_mem
  have ceu := chr_iff dc (show decomposeList '으' = .ok ('ㅇ', 'ㅡ', ' ') by decide +kernel)
  have hl : (front ++ [c]).length > 1 ↔ front ≠ [] := by cases front <;> simp
  have surf : ∀ vfs : List (Char × Char), (∀ vf ∈ vfs, vf.1 ∈ jungsungList ∧ vf.2 ∈ jongsungList) →
      SGives (fun k => surfaces k vfs) (sctx front c x y z) (fun s => ∃ vf ∈ vfs, ∃ c', IsSyllableOf c' x vf.1 vf.2 ∧ s = front ++ [c']) :=
    fun vfs h => surfaces_ok hx vfs h
  have hD : SGives stemD (sctx front c x y z) (fun s => z = 'ㄷ' ∧ ∃ c', IsSyllableOf c' x y 'ㄹ' ∧ s = front ++ [c']) := by
    obtain ⟨a, ha, hm⟩ := sgives_ite (Q := z = 'ㄷ') (fun _ => surf [(y, 'ㄹ')] (by simp [hy, j1]))
    exact ⟨a, ha, fun s => by rw [hm]; simp⟩
  have hB : SGives stemB (sctx front c x y z) (fun s => z = 'ㅂ' ∧ ∃ c', IsSyllableOf c' x y ' ' ∧ s = front ++ [c']) := by
    obtain ⟨a, ha, hm⟩ := sgives_ite (Q := z = 'ㅂ') (fun _ => surf [(y, ' ')] (by simp [hy, j5]))
    exact ⟨a, ha, fun s => by rw [hm]; simp⟩
  have hOpen : SGives stemOpen (sctx front c x y z) (fun s => z = ' ' ∧ ∃ w ∈ ['ㄴ', 'ㄹ', 'ㅂ', 'ㅆ'], ∃ c', IsSyllableOf c' x y w ∧ s = front ++ [c']) := by
    obtain ⟨a, ha, hm⟩ := sgives_ite (Q := z = ' ') (fun _ => surf [(y, 'ㄴ'), (y, 'ㄹ'), (y, 'ㅂ'), (y, 'ㅆ')] (by simp [hy, j1, j2, j3, j4]))
    exact ⟨a, ha, fun s => by rw [hm]; simp⟩
  have hS : SGives stemS (sctx front c x y z) (fun s => (z = 'ㅅ' ∧ c ≠ '벗') ∧ ∃ c', IsSyllableOf c' x y ' ' ∧ s = front ++ [c']) := by
    obtain ⟨a, ha, hm⟩ := sgives_ite (Q := z = 'ㅅ' ∧ c ≠ '벗') (fun _ => surf [(y, ' ')] (by simp [hy, j5]))
    exact ⟨a, ha, fun s => by rw [hm]; simp⟩
  have hU : SGives stemU (sctx front c x y z) (fun s => (y = 'ㅜ' ∧ z = ' ') ∧ c ≠ '푸' ∧ ∃ w ∈ [' ', 'ㅆ'], ∃ c', IsSyllableOf c' x 'ㅝ' w ∧ s = front ++ [c']) := by
    have h1 : SGives (fun k => if k.last = '푸' then .ok [] else surfaces k [('ㅝ', ' '), ('ㅝ', 'ㅆ')]) (sctx front c x y z)
        (fun s => c ≠ '푸' ∧ ∃ w ∈ [' ', 'ㅆ'], ∃ c', IsSyllableOf c' x 'ㅝ' w ∧ s = front ++ [c']) := by
      by_cases h : c = '푸'
      · exact ⟨[], by simp [h], fun s => by simp [h]⟩
      · obtain ⟨a, ha, hm⟩ := surf [('ㅝ', ' '), ('ㅝ', 'ㅆ')] (by simp [v1, j4, j5])
        exact ⟨a, by dsimp only at ha ⊢; rw [if_neg h, ha], fun s => by rw [hm]; simp [h]⟩
    obtain ⟨a, ha, hm⟩ := sgives_ite (Q := y = 'ㅜ' ∧ z = ' ') (fun _ => h1)
    exact ⟨a, ha, fun s => by rw [hm]⟩
  have hO : SGives stemO (sctx front c x y z) (fun s => (y = 'ㅗ' ∧ z = ' ') ∧ ∃ w ∈ [' ', 'ㅆ'], ∃ c', IsSyllableOf c' x 'ㅘ' w ∧ s = front ++ [c']) := by
    obtain ⟨a, ha, hm⟩ := sgives_ite (Q := y = 'ㅗ' ∧ z = ' ') (fun _ => surf [('ㅘ', ' '), ('ㅘ', 'ㅆ')] (by simp [v2, j4, j5]))
    exact ⟨a, ha, fun s => by rw [hm]; simp⟩
  have hEu : SGives stemEu (sctx front c x y z) (fun s => (y = 'ㅡ' ∧ z = ' ') ∧
      ((∃ w ∈ [' ', 'ㅆ'], ∃ c', IsSyllableOf c' x 'ㅓ' w ∧ s = front ++ [c']) ∨ (x = 'ㅇ' ∧ front ≠ []) ∧ s = front)) := by
    obtain ⟨a, ha, hm⟩ := surf [('ㅓ', ' '), ('ㅓ', 'ㅆ')] (by simp [v3, j4, j5])
    have h1 : SGives (fun k => (surfaces k [('ㅓ', ' '), ('ㅓ', 'ㅆ')]).map (fun ss => ss ++ (if k.ll.1 = 'ㅇ' ∧ k.stem.length > 1 then [k.front] else [])))
        (sctx front c x y z) (fun s => (∃ w ∈ [' ', 'ㅆ'], ∃ c', IsSyllableOf c' x 'ㅓ' w ∧ s = front ++ [c']) ∨ (x = 'ㅇ' ∧ front ≠ []) ∧ s = front) := by
      refine ⟨a ++ (if x = 'ㅇ' ∧ (front ++ [c]).length > 1 then [front] else []), by dsimp only at ha ⊢; rw [ha]; rfl, fun s => ?_⟩
      rw [List.mem_append, hm]
      refine or_congr (by simp) ?_
      by_cases h : x = 'ㅇ' ∧ front ≠ []
      · rw [if_pos ⟨h.1, hl.2 h.2⟩]; simp [h]
      · rw [if_neg (fun h' => h ⟨h'.1, hl.1 h'.2⟩)]; simp only [h]; simp
    obtain ⟨a, ha, hm⟩ := sgives_ite (Q := y = 'ㅡ' ∧ z = ' ') (fun _ => h1)
    exact ⟨a, ha, fun s => by rw [hm]⟩
  have hHa : SGives stemHa (sctx front c x y z) (fun s => c = '하' ∧ (s = front ++ ['해'] ∨ s = front ++ ['했'])) := by
    unfold stemHa
    by_cases h : c = '하'
    · exact ⟨_, by dsimp only; rw [if_pos h], fun s => by simp [h]⟩
    · exact ⟨_, by dsimp only; rw [if_neg h], fun s => by simp [h]⟩
  have hHD : SGives stemHDrop (sctx front c x y z) (fun s => (z = 'ㅎ' ∧ c ≠ '좋') ∧ ∃ w ∈ [' ', 'ㄴ', 'ㄹ', 'ㅆ'], ∃ c', IsSyllableOf c' x y w ∧ s = front ++ [c']) := by
    obtain ⟨a, ha, hm⟩ := sgives_ite (Q := z = 'ㅎ' ∧ c ≠ '좋') (fun _ => surf [(y, ' '), (y, 'ㄴ'), (y, 'ㄹ'), (y, 'ㅆ')] (by simp [hy, j1, j2, j4, j5]))
    exact ⟨a, ha, fun s => by rw [hm]; simp⟩
  have hHM : SGives stemHMerge (sctx front c x y z) (fun s => (z = 'ㅎ' ∧ c ≠ '좋') ∧ ∃ c', IsSyllableOf c' x 'ㅐ' 'ㅆ' ∧ s = front ++ [c']) := by
    obtain ⟨a, ha, hm⟩ := sgives_ite (Q := z = 'ㅎ' ∧ c ≠ '좋') (fun _ => surf [('ㅐ', 'ㅆ')] (by simp [v4, j4]))
    exact ⟨a, ha, fun s => by rw [hm]; simp⟩
  have hI : SGives stemI (sctx front c x y z) (fun s => (y = 'ㅣ' ∧ z = ' ') ∧ ∃ c', IsSyllableOf c' x 'ㅕ' 'ㅆ' ∧ s = front ++ [c']) := by
    obtain ⟨a, ha, hm⟩ := sgives_ite (Q := y = 'ㅣ' ∧ z = ' ') (fun _ => surf [('ㅕ', 'ㅆ')] (by simp [v5, j4]))
    exact ⟨a, ha, fun s => by rw [hm]; simp⟩
  have hReu : SGives stemReu (sctx front c x y z) (fun s => c = '르' ∧ ∃ p q q0 q1 q2 q', front = p ++ [q] ∧ IsSyllableOf q q0 q1 q2 ∧
      IsSyllableOf q' q0 q1 'ㄹ' ∧ s = p ++ [q']) := by
    unfold stemReu
    by_cases h : c = '르'
    · rcases List.eq_nil_or_concat front with rfl | ⟨p, q, rfl⟩
      · exact ⟨[], by simp [h], fun s => by simp⟩
      · obtain ⟨d, hd, hL, hself⟩ := decomposeList_syllable (hq h q (by simp))
        obtain ⟨q0, q1, q2⟩ := d
        obtain ⟨q', hq', _⟩ := compose_ok hL.cho hL.jung j1
        refine ⟨[p ++ [q']], ?_, fun s => ?_⟩
        · dsimp only
          have e1 : (p.concat q).getLast? = some q := by simp
          have e2 : (p.concat q).dropLast = p := by simp
          rw [if_pos h, e1, e2]
          dsimp only
          unfold stemReuBody
          rw [hd]
          dsimp only
          rw [hq']; rfl
        · rw [List.mem_singleton]
          constructor
          · rintro rfl
            exact ⟨h, p, q, q0, q1, q2, q', by simp, isSyllableOf_iff.2 hself, isSyllableOf_iff.2 hq', rfl⟩
          · rintro ⟨_, p', r', a0, a1, a2, b, he, h1, h2, rfl⟩
            have he' : p ++ [q] = p' ++ [r'] := by simpa using he
            obtain ⟨rfl, hqq⟩ := List.append_inj' he' rfl
            cases hqq
            rw [isSyllableOf_decompose h1] at hd
            cases hd
            rw [isSyllableOf_iff, hq'] at h2
            cases h2; rfl
    · exact ⟨[], by simp [h], fun s => by simp [h]⟩
  obtain ⟨aD, eD, mD⟩ := hD
  obtain ⟨aR, eR, mR⟩ := hReu
  obtain ⟨aB, eB, mB⟩ := hB
  obtain ⟨aO, eO, mO⟩ := hOpen
  obtain ⟨aS, eS, mS⟩ := hS
  obtain ⟨aU, eU, mU⟩ := hU
  obtain ⟨aV, eV, mV⟩ := hO
  obtain ⟨aE, eE, mE⟩ := hEu
  obtain ⟨aH, eH, mH⟩ := hHa
  obtain ⟨aG, eG, mG⟩ := hHD
  obtain ⟨aM, eM, mM⟩ := hHM
  obtain ⟨aI, eI, mI⟩ := hI
  refine ⟨(front ++ [c]) :: (aD ++ (aR ++ (aB ++ (aO ++ (aS ++ (aU ++ (aV ++ (aE ++ (aH ++ (aG ++ (aM ++ (aI ++ [])))))))))))), ?_, ?_⟩
  · unfold conjugateStem
    rw [List.getLast?_concat]
    dsimp only
    rw [dc]
    dsimp only
    rw [List.dropLast_concat]
    simp only [stemRules, runStem, eD, eR, eB, eO, eS, eU, eV, eE, eH, eG, eM, eI]
    rfl
  · intro s
    simp only [List.mem_cons, List.mem_append, List.not_mem_nil, or_false, mD, mR, mB, mO, mS, mU, mV, mE, mH, mG, mM, mI]
    clear eD eR eB eO eS eU eV eE eH eG eM eI mD mR mB mO mS mU mV mE mH mG mM mI
    constructor
    · rintro (rfl | ⟨h1, c', h2, rfl⟩ | ⟨h1, p, q, q0, q1, q2, q', h2, h3, h4, rfl⟩ | ⟨h1, c', h2, rfl⟩ | ⟨h1, w, h2, c', h3, rfl⟩ | ⟨h1, c', h2, rfl⟩ |
        ⟨h1, h2, w, h3, c', h4, rfl⟩ | ⟨h1, w, h3, c', h4, rfl⟩ | ⟨h1, ⟨w, h3, c', h4, rfl⟩ | ⟨h3, rfl⟩⟩ | ⟨h1, rfl | rfl⟩ | ⟨h1, w, h3, c', h4, rfl⟩ |
        ⟨h1, c', h4, rfl⟩ | ⟨h1, c', h4, rfl⟩)
      · exact .self
      · exact .d c' h1 h2
      · exact .reu p q q0 q1 q2 q' h1 h2 h3 h4
      · exact .drop c' (.inl h1) h2
      · exact .open c' w h1 (by simpa using h2) h3
      · exact .drop c' (.inr h1) h2
      · exact .u c' w h1.1 h1.2 h2 (by simpa using h3) h4
      · exact .o c' w h1.1 h1.2 (by simpa using h3) h4
      · exact .eu c' w h1.1 h1.2 (by simpa using h3) h4
      · exact .euDrop (ceu.2 ⟨h3.1, h1⟩) h3.2
      · exact .ha '해' h1 (by simp)
      · exact .ha '했' h1 (by simp)
      · exact .hDrop c' w h1.1 h1.2 (by simpa using h3) h4
      · exact .hMerge c' h1.1 h1.2 h4
      · exact .i c' h1.1 h1.2 h4
    · intro h
      cases h with
      | self => exact .inl rfl
      | d c' h1 h2 => exact .inr (.inl ⟨h1, c', h2, rfl⟩)
      | reu p q q0 q1 q2 q' h1 h2 h3 h4 => exact .inr (.inr (.inl ⟨h1, p, q, q0, q1, q2, q', h2, h3, h4, rfl⟩))
      | drop c' h1 h2 =>
        rcases h1 with h1 | h1
        · exact .inr (.inr (.inr (.inl ⟨h1, c', h2, rfl⟩)))
        · exact .inr (.inr (.inr (.inr (.inr (.inl ⟨h1, c', h2, rfl⟩)))))
      | «open» c' w h1 h2 h3 => exact .inr (.inr (.inr (.inr (.inl ⟨h1, w, by simpa using h2, c', h3, rfl⟩))))
      | u c' w h1 h2 h3 h4 h5 => exact .inr (.inr (.inr (.inr (.inr (.inr (.inl ⟨⟨h1, h2⟩, h3, w, by simpa using h4, c', h5, rfl⟩))))))
      | o c' w h1 h2 h4 h5 => exact .inr (.inr (.inr (.inr (.inr (.inr (.inr (.inl ⟨⟨h1, h2⟩, w, by simpa using h4, c', h5, rfl⟩)))))))
      | eu c' w h1 h2 h4 h5 => exact .inr (.inr (.inr (.inr (.inr (.inr (.inr (.inr (.inl ⟨⟨h1, h2⟩, .inl ⟨w, by simpa using h4, c', h5, rfl⟩⟩))))))))
      | euDrop h1 h2 => exact .inr (.inr (.inr (.inr (.inr (.inr (.inr (.inr (.inl ⟨(ceu.1 h1).2, .inr ⟨⟨(ceu.1 h1).1, h2⟩, rfl⟩⟩))))))))
      | ha c' h1 h2 =>
        refine .inr (.inr (.inr (.inr (.inr (.inr (.inr (.inr (.inr (.inl ⟨h1, ?_⟩)))))))))
        have : c' = '해' ∨ c' = '했' := by simpa using h2
        rcases this with rfl | rfl
        · exact .inl rfl
        · exact .inr rfl
      | hDrop c' w h1 h2 h4 h5 => exact .inr (.inr (.inr (.inr (.inr (.inr (.inr (.inr (.inr (.inr (.inl ⟨⟨h1, h2⟩, w, by simpa using h4, c', h5, rfl⟩))))))))))
      | hMerge c' h1 h2 h5 => exact .inr (.inr (.inr (.inr (.inr (.inr (.inr (.inr (.inr (.inr (.inr (.inl ⟨⟨h1, h2⟩, c', h5, rfl⟩)))))))))))
      | i c' h1 h2 h5 => exact .inr (.inr (.inr (.inr (.inr (.inr (.inr (.inr (.inr (.inr (.inr (.inr ⟨⟨h1, h2⟩, c', h5, rfl⟩)))))))))))

end
end Lemma
