import Verif.Spec.NetIO
import Mathlib.Data.List.Induction

/-! Lemmas on texts: splitting, stripping, digits; the header of UCINET files. -/

namespace Pymnet

open Text Spec

/-! ### Words -/

theorem wordsFrom_blank {s : Text} (h : Blank s) (t : Text) : wordsFrom [] (s ++ t) = wordsFrom [] t := by
  induction s with
  | nil => rfl
  | cons c s ih =>
    rw [List.cons_append, wordsFrom, if_pos (h c (by simp)), if_pos rfl]
    exact ih fun c hc => h c (by simp [hc])

theorem wordsFrom_word {w : Text} (h : ∀ c ∈ w, isSpace c = false) (cur t : Text) :
    wordsFrom cur (w ++ t) = wordsFrom (cur ++ w) t := by
  induction w generalizing cur with
  | nil => simp
  | cons c w ih =>
    rw [List.cons_append, wordsFrom, if_neg (by rw [h c (by simp)]; simp), ih fun c hc => h c (by simp [hc])]
    simp

theorem words_fields {t : Text} {ws : List Text} (h : Fields t ws) : words t = ws := by
  induction h with
  | nil hb =>
    have := wordsFrom_blank hb []
    simpa [words, wordsFrom] using this
  | @cons s w t ws hs hw ht _ ih =>
    unfold words at ih ⊢
    rw [wordsFrom_blank hs, wordsFrom_word hw.2, List.nil_append]
    cases t with
    | nil =>
      rw [wordsFrom, if_neg hw.1]
      have : ws = [] := by rw [← ih]; rfl
      rw [this]
    | cons c t =>
      have hc := ht c t rfl
      rw [wordsFrom, if_pos hc, if_neg hw.1]
      rw [wordsFrom, if_pos hc, if_pos rfl] at ih
      rw [ih]

theorem fields_words (t : Text) : Fields t (words t) := by
  suffices h : ∀ (t cur : Text), (∀ c ∈ cur, isSpace c = false) → Fields (cur ++ t) (wordsFrom cur t) by
    simpa [words] using h t [] (by simp)
  intro t
  induction t with
  | nil =>
    intro cur hc
    rw [wordsFrom]
    by_cases h : cur = []
    · rw [if_pos h, h]; exact .nil (by simp [Blank])
    · rw [if_neg h]
      have := Fields.cons (s := []) (w := cur) (t := []) (ws := []) (by simp [Blank]) ⟨h, hc⟩ (by simp) (.nil (by simp [Blank]))
      simpa using this
  | cons c t ih =>
    intro cur hc
    rw [wordsFrom]
    have hcons : ∀ ws, isSpace c = true → Fields t ws → Fields (c :: t) ws := by
      intro ws hs h
      cases h with
      | nil hb => exact .nil (by simpa [Blank, hs] using hb)
      | @cons s w t' ws hs' hw ht hf =>
        have : c :: (s ++ (w ++ t')) = (c :: s) ++ (w ++ t') := rfl
        rw [this]
        exact .cons (by simpa [Blank, hs] using hs') hw ht hf
    by_cases hs : isSpace c = true
    · rw [if_pos hs]
      have h0 : Fields (c :: t) (wordsFrom [] t) := hcons _ hs (by simpa using ih [] (by simp))
      by_cases h : cur = []
      · rw [if_pos h, h]; exact h0
      · rw [if_neg h]
        have := Fields.cons (s := []) (w := cur) (t := c :: t) (by simp [Blank]) ⟨h, hc⟩
          (by intro d t' e; cases e; exact hs) h0
        simpa using this
    · rw [if_neg hs]
      have hs' : isSpace c = false := by simpa using hs
      have := ih (cur ++ [c]) (by
        intro d hd
        rcases List.mem_append.1 hd with hd | hd
        · exact hc d hd
        · rw [List.mem_singleton.1 hd]; exact hs')
      simpa using this

/-! ### Splitting at a character -/

theorem splitOn_word {sep : Char} {w : Text} (h : sep ∉ w) : splitOn sep w = [w] := by
  induction w with
  | nil => rfl
  | cons c w ih =>
    rw [splitOn, if_neg (by rintro rfl; exact h (by simp)), ih fun hc => h (by simp [hc])]

theorem splitOn_sep {sep : Char} {w : Text} (h : sep ∉ w) (t : Text) :
    splitOn sep (w ++ sep :: t) = w :: splitOn sep t := by
  induction w with
  | nil => rw [List.nil_append, splitOn, if_pos rfl]
  | cons c w ih =>
    rw [List.cons_append, splitOn, if_neg (by rintro rfl; exact h (by simp)), ih fun hc => h (by simp [hc])]

theorem splitOn_joined {sep : Char} {ws : List Text} (h0 : ws ≠ []) (h : ∀ w ∈ ws, sep ∉ w) :
    splitOn sep (joined sep ws) = ws := by
  induction ws with
  | nil => exact absurd rfl h0
  | cons w ws ih =>
    cases ws with
    | nil => exact splitOn_word (h w (by simp))
    | cons v ws =>
      rw [joined, splitOn_sep (h w (by simp)), ih (by simp) fun w hw => h w (by simp [hw])]
      simp

/-! ### Stripping -/

theorem dropWhile_blank {s : Text} (h : Blank s) (t : Text) : (s ++ t).dropWhile isSpace = t.dropWhile isSpace := by
  induction s with
  | nil => rfl
  | cons c s ih =>
    rw [List.cons_append, List.dropWhile_cons_of_pos (h c (by simp))]
    exact ih fun c hc => h c (by simp [hc])

theorem dropWhile_start {t : Text} (h : ∀ c t', t = c :: t' → isSpace c = false) : t.dropWhile isSpace = t := by
  cases t with
  | nil => rfl
  | cons c t => rw [List.dropWhile_cons_of_neg]; rw [h c t rfl]; simp

theorem strip_blank {s : Text} (h : Blank s) : strip s = [] := by
  have := dropWhile_blank h []
  rw [List.append_nil] at this
  simp [strip, this]

theorem strip_trimmed {s w s' : Text} (hs : Blank s) (hs' : Blank s') (hw : Trimmed w) : strip (s ++ w ++ s') = w := by
  unfold strip
  rw [List.append_assoc, dropWhile_blank hs]
  by_cases h : w = []
  · subst h
    have := strip_blank hs'
    simpa [strip] using this
  · have h1 : (w ++ s').dropWhile isSpace = w ++ s' := by
      apply dropWhile_start
      intro c t' e
      cases w with
      | nil => exact absurd rfl h
      | cons d w => cases e; exact hw.1 _ _ rfl
    rw [h1, List.reverse_append, dropWhile_blank (by intro c hc; exact hs' c (by simpa using hc)),
      dropWhile_start, List.reverse_reverse]
    intro c t' e
    exact hw.2 c t'.reverse (by rw [← List.reverse_reverse w, e]; simp)

theorem Spec.Word.trimmed {w : Text} (h : ∀ c ∈ w, isSpace c = false) : Trimmed w :=
  ⟨fun c t e => h c (by rw [e]; simp), fun c t e => h c (by rw [e]; simp)⟩

/-! ### Letters and digits -/

theorem lower_mem {t : Text} {c : Char} (h : c ∈ t) : c.toLower ∈ lower t := List.mem_map_of_mem h

theorem noSep_of_lower {t u : Text} {c : Char} (h : lower t = u) (hc : c.toLower ∉ u) : c ∉ t :=
  fun hm => hc (h ▸ lower_mem hm)

theorem isSpace_cases {c : Char} (h : isSpace c = true) :
    c = ' ' ∨ c = '\t' ∨ c = '\n' ∨ c = '\r' ∨ c = '\x0b' ∨ c = '\x0c' := by
  simpa [isSpace, or_assoc] using h

theorem isSpace_lower {c : Char} (h : isSpace c = true) : c.toLower = c := by
  rcases isSpace_cases h with rfl | rfl | rfl | rfl | rfl | rfl <;> rfl

theorem noSpace_of_lower {t u : Text} (h : lower t = u) (hu : ∀ c ∈ u, isSpace c = false) : ∀ c ∈ t, isSpace c = false := by
  intro c hc
  by_contra hs
  have hs : isSpace c = true := by simpa using hs
  have := hu c.toLower (h ▸ lower_mem hc)
  rw [isSpace_lower hs, hs] at this
  exact Bool.noConfusion this

theorem isDigit_noSpace {c : Char} (h : c.isDigit = true) : isSpace c = false := by
  by_contra hs
  rcases isSpace_cases (by simpa using hs) with rfl | rfl | rfl | rfl | rfl | rfl <;> exact absurd h (by decide)

theorem digits_noEq {t : Text} (h : Digits t) : '=' ∉ t := fun hm => absurd (h.2 _ hm) (by decide)

theorem digits_noSpace {t : Text} (h : Digits t) : ∀ c ∈ t, isSpace c = false := fun c hc => isDigit_noSpace (h.2 c hc)

theorem isDigits_of {t : Text} (h : Digits t) : isDigits t = true := by
  unfold isDigits
  cases t with
  | nil => exact absurd rfl h.1
  | cons c t => simpa using h.2

theorem toNat_decimal (t : Text) : toNat t = decimal t := by
  induction t using List.reverseRecOn with
  | nil => rfl
  | append_singleton t c ih =>
    unfold toNat at ih ⊢
    rw [List.foldl_append, List.foldl_cons, List.foldl_nil, ih]
    simp [decimal, Nat.ofDigits_cons]
    omega

/-! ### The sizes -/

theorem blank_noEq {s : Text} (h : Blank s) : '=' ∉ s := fun hm => absurd (h _ hm) (by decide)

theorem parseSize_ok {t : Text} {n nm : Nat} (h : SizeText t n nm) : parseSize t = .ok (n, nm) := by
  cases h with
  | @one s1 N s2 s3 d s4 h1 hN h2 h3 hd h4 =>
    have hNeq := noSep_of_lower (c := '=') hN (by decide)
    have hNs := noSpace_of_lower hN (by decide)
    unfold parseSize
    rw [splitOn_sep (by simp [blank_noEq h1, blank_noEq h2, hNeq]),
      splitOn_word (by simp [blank_noEq h3, blank_noEq h4, digits_noEq hd])]
    simp only [checkSize]
    rw [strip_trimmed h1 h2 (Spec.Word.trimmed hNs), strip_trimmed h3 h4 (Spec.Word.trimmed (digits_noSpace hd)), hN,
      isDigits_of hd, toNat_decimal]
    rfl
  | @two s1 N s2 s3 d s4 M s5 s6 e s7 h1 hN h2 h3 hd h4 h4' hM h5 h6 he h7 =>
    have hNeq := noSep_of_lower (c := '=') hN (by decide)
    have hNs := noSpace_of_lower hN (by decide)
    have hMeq := noSep_of_lower (c := '=') hM (by decide)
    have hMs := noSpace_of_lower hM (by decide)
    unfold parseSize
    rw [splitOn_sep (by simp [blank_noEq h1, blank_noEq h2, hNeq]),
      splitOn_sep (by simp [blank_noEq h3, blank_noEq h4, blank_noEq h5, digits_noEq hd, hMeq]),
      splitOn_word (by simp [blank_noEq h6, blank_noEq h7, digits_noEq he])]
    have hM0 : M ≠ [] := by rintro rfl; exact absurd hM (by decide)
    have hw : words (s3 ++ (d ++ (s4 ++ (M ++ s5)))) = [d, M] := by
      apply words_fields
      refine .cons h3 ⟨hd.1, digits_noSpace hd⟩ ?_ (.cons h4 ⟨hM0, hMs⟩ ?_ (.nil h5))
      · intro c t' e'
        cases s4 with
        | nil => exact absurd rfl h4'
        | cons x s4 => cases e'; exact h4 _ (by simp)
      · intro c t' e'; exact h5 c (by rw [e']; simp)
    simp only [hw, checkSize]
    have hdt := strip_trimmed (s := []) (s' := []) (by simp [Blank]) (by simp [Blank]) (Spec.Word.trimmed (digits_noSpace hd))
    have hMt := strip_trimmed (s := []) (s' := []) (by simp [Blank]) (by simp [Blank]) (Spec.Word.trimmed hMs)
    rw [List.nil_append, List.append_nil] at hdt hMt
    rw [strip_trimmed h1 h2 (Spec.Word.trimmed hNs), hdt, hMt, strip_trimmed h6 h7 (Spec.Word.trimmed (digits_noSpace he)), hN,
      hM, isDigits_of hd, isDigits_of he, toNat_decimal, toNat_decimal]
    rfl

theorem sizeText_notBlank {t : Text} {n nm : Nat} (h : SizeText t n nm) : '=' ∈ t := by
  cases h <;> simp

theorem mem_strip_ne {t : Text} {c : Char} (hc : c ∈ t) (hs : isSpace c = false) : strip t ≠ [] := by
  have key : ∀ u : Text, c ∈ u → c ∈ u.dropWhile isSpace := by
    intro u hu
    induction u with
    | nil => cases hu
    | cons d u ih =>
      by_cases hd : isSpace d = true
      · rw [List.dropWhile_cons_of_pos hd]
        rcases List.mem_cons.1 hu with rfl | hu
        · rw [hs] at hd; exact Bool.noConfusion hd
        · exact ih hu
      · rw [List.dropWhile_cons_of_neg hd]; exact hu
  intro e
  have h1 : c ∈ (t.dropWhile isSpace).reverse := List.mem_reverse.2 (key t hc)
  have h2 := List.mem_reverse.2 (key _ h1)
  unfold strip at e
  rw [e] at h2
  cases h2

theorem readSize_ok {ls : List Text} {n nm : Nat} (h : Start ls n nm) (rest : List Text) :
    readSize (ls ++ rest) = .ok ((n, nm), rest) := by
  have hD : ∀ {D : Text}, lower D = "dl".toList → ∀ t, startsWith (lower (D ++ t)) "dl".toList = true ∧ (D ++ t).drop 2 = t := by
    intro D hD t
    have hl : D.length = 2 := by
      have := congrArg List.length hD
      simpa [lower] using this
    refine ⟨?_, ?_⟩
    · unfold startsWith lower
      rw [List.map_append, show D.map Char.toLower = "dl".toList from hD]
      simp [List.isPrefixOf]
    · rw [← hl, List.drop_left]
  cases h with
  | @same D t n nm h1 h2 =>
    rw [List.singleton_append]
    simp only [readSize]
    rw [if_pos (hD h1 t).1, (hD h1 t).2, if_neg (mem_strip_ne (sizeText_notBlank h2) (by decide)), parseSize_ok h2]
  | @next D s t n nm h1 hs h2 =>
    rw [List.cons_append, List.singleton_append]
    simp only [readSize]
    rw [if_pos (hD h1 s).1, (hD h1 s).2, if_pos (strip_blank hs)]
    simp only [parseSize_ok h2]

/-! ### Labels and the header -/

theorem joined_noSep {ls us : List Text} (h : List.Forall₂ Padded ls us) (hl : ∀ l ∈ ls, ',' ∉ l) : ∀ u ∈ us, ',' ∉ u := by
  induction h with
  | nil => simp
  | cons hp _ ih =>
    obtain ⟨s, s', hs, hs', rfl⟩ := hp
    intro u hu
    rcases List.mem_cons.1 hu with rfl | hu
    · have h1 : ',' ∉ s := fun hm => absurd (hs _ hm) (by decide)
      have h2 : ',' ∉ s' := fun hm => absurd (hs' _ hm) (by decide)
      have h3 := hl _ (List.mem_cons_self ..)
      simp [h1, h2, h3]
    · exact ih (fun l h => hl l (by simp [h])) u hu

theorem strip_padded {ls us : List Text} (h : List.Forall₂ Padded ls us) (hl : ∀ l ∈ ls, Trimmed l) : us.map strip = ls := by
  induction h with
  | nil => rfl
  | cons hp _ ih =>
    obtain ⟨s, s', hs, hs', rfl⟩ := hp
    rw [List.map_cons, strip_trimmed hs hs' (hl _ (by simp)), ih fun l h => hl l (by simp [h])]

theorem readLabels_ok {k : Nat} {g : List (List Text)} {lines : List Text} (hg : List.Forall₂ LabelLine g lines) (rest : List Text) :
    ∀ (k0 : Nat), k0 + g.flatten.length = k → (∀ ls ∈ g, ls ≠ [] ∧ ∀ l ∈ ls, ',' ∉ l ∧ Trimmed l) →
    readLabels k k0 (lines ++ rest) = .ok (g.flatten, rest) := by
  induction hg with
  | nil =>
    intro k0 h0 _
    have : k0 = k := by simpa using h0
    subst this
    cases rest with
    | nil => simp [readLabels]
    | cons line rest => simp [readLabels]
  | @cons ls line g lines hll _ ih =>
    intro k0 h0 h
    obtain ⟨us, hus, rfl⟩ := hll
    obtain ⟨hne, hl⟩ := h ls (by simp)
    have hlen := hus.length_eq
    have hpos : 0 < ls.length := List.length_pos_iff.2 hne
    have hune : us ≠ [] := List.length_pos_iff.1 (by omega)
    rw [List.cons_append, readLabels]
    rw [List.flatten_cons, List.length_append] at h0
    rw [if_pos (by omega), splitOn_joined hune (joined_noSep hus fun w hw => (hl w hw).1),
      ih (k0 + us.length) (by omega) fun x hx => h x (by simp [hx])]
    simp only [List.flatten_cons]
    rw [strip_padded hus fun w hw => (hl w hw).2]

theorem keyword_lower {k line : Text} (h : Keyword k line) (hk : ∀ c ∈ k, c ≠ ' ' → isSpace c = false) (hk0 : ∀ c t, k = c :: t → isSpace c = false) :
    ∀ u, ∃ t, lower (lstrip (line ++ u)) = k ++ t := by
  obtain ⟨s, t, s', hs, ht, hs', rfl⟩ := h
  intro u
  by_cases h0 : t = []
  · subst h0
    have : k = [] := by rw [← ht]; rfl
    subst this
    exact ⟨_, rfl⟩
  · refine ⟨lower (s' ++ u), ?_⟩
    rw [lstrip, List.append_assoc, List.append_assoc, dropWhile_blank hs, dropWhile_start]
    · rw [lower, List.map_append]; change lower t ++ _ = _; rw [ht]; rfl
    · intro c t' e
      cases t with
      | nil => exact absurd rfl h0
      | cons d t =>
        cases e
        by_contra hc
        have hc : isSpace c = true := by simpa using hc
        have := hk0 c.toLower (lower t) (by rw [← ht]; rfl)
        rw [isSpace_lower hc, hc] at this
        exact Bool.noConfusion this

theorem startsWith_append (k t : Text) : startsWith (k ++ t) k = true := by
  unfold startsWith
  exact List.isPrefixOf_iff_prefix.2 (List.prefix_append k t)

theorem startsWith_not {k t k' : Text} (h' : startsWith k' k = false) (h : startsWith k k' = false) : startsWith (k ++ t) k' = false := by
  unfold startsWith at *
  by_contra hc
  have hc : k'.isPrefixOf (k ++ t) = true := by simpa using hc
  have h1 := List.isPrefixOf_iff_prefix.1 hc
  rcases List.prefix_or_prefix_of_prefix h1 (List.prefix_append k t) with h2 | h2
  · rw [List.isPrefixOf_iff_prefix.2 h2] at h
    exact Bool.noConfusion h
  · rw [List.isPrefixOf_iff_prefix.2 h2] at h'
    exact Bool.noConfusion h'

/-- The header after one more part. -/
def Header.add (h : Header) : Sec → Header
  | .format f => { h with format := strip (lower f) }
  | .labels g => { h with labels := some g.flatten }
  | .rowLabels g => { h with rlabels := some g.flatten }
  | .colLabels g => { h with clabels := some g.flatten }
  | .levelLabels g => { h with llabels := some g.flatten }

theorem readHeader_sec {n nm : Nat} {s : Sec} {ls : List Text} (hs : s.Ok n nm) (hls : s.Lines ls) (k : Nat) (h : Header)
    (rest : List Text) : readHeader n nm (k + 1) h (ls ++ rest) = readHeader n nm k (h.add s) rest := by
  cases hls with
  | @format l f hk =>
    obtain ⟨s, t, s', hs1, ht, hs2, rfl⟩ := hk
    have ht0 : t ≠ [] := by rintro rfl; cases ht
    have htr := Spec.Word.trimmed (noSpace_of_lower ht (by decide))
    have hl : lower (lstrip (s ++ t ++ s' ++ '=' :: f)) = ("format".toList ++ lower s') ++ '=' :: lower f := by
      rw [lstrip, List.append_assoc, List.append_assoc, dropWhile_blank hs1, dropWhile_start]
      · rw [lower, List.map_append, List.map_append]; change lower t ++ _ = _; rw [ht, List.append_assoc]; rfl
      · intro c t' e
        cases t with
        | nil => exact absurd rfl ht0
        | cons d t => cases e; exact htr.1 _ _ rfl
    have hs3 : '=' ∉ lower s' := by
      intro hm
      obtain ⟨c, hc, e⟩ := List.mem_map.1 hm
      rw [isSpace_lower (hs2 c hc)] at e
      subst e
      exact blank_noEq hs2 hc
    rw [List.singleton_append, readHeader, if_pos (by rw [hl, List.append_assoc]; exact startsWith_append _ _), hl,
      splitOn_sep (by rw [List.mem_append]; rintro (h | h); exact absurd h (by decide); exact hs3 h), splitOn_word hs]
    rfl
  | @labels l g ls hk hg =>
    obtain ⟨t, ht⟩ := keyword_lower hk (by decide) (by intro c t e; cases e; rfl) []
    rw [List.append_nil] at ht
    rw [List.cons_append, readHeader, ht, if_neg (by rw [startsWith_not (by decide) (by decide)]; simp),
      if_pos (startsWith_append _ _), readLabels_ok hg rest 0 (by rw [hs.1]; simp) hs.2]
    rfl
  | @rowLabels l g ls hk hg =>
    obtain ⟨t, ht⟩ := keyword_lower hk (by decide) (by intro c t e; cases e; rfl) []
    rw [List.append_nil] at ht
    rw [List.cons_append, readHeader, ht, if_neg (by rw [startsWith_not (by decide) (by decide)]; simp),
      if_neg (by rw [startsWith_not (by decide) (by decide)]; simp),
      if_pos (startsWith_append _ _), readLabels_ok hg rest 0 (by rw [hs.1]; simp) hs.2]
    rfl
  | @colLabels l g ls hk hg =>
    obtain ⟨t, ht⟩ := keyword_lower hk (by decide) (by intro c t e; cases e; rfl) []
    rw [List.append_nil] at ht
    rw [List.cons_append, readHeader, ht, if_neg (by rw [startsWith_not (by decide) (by decide)]; simp),
      if_neg (by rw [startsWith_not (by decide) (by decide)]; simp), if_neg (by rw [startsWith_not (by decide) (by decide)]; simp),
      if_pos (startsWith_append _ _), readLabels_ok hg rest 0 (by rw [hs.1]; simp) hs.2]
    rfl
  | @levelLabels l g ls hk hg =>
    obtain ⟨t, ht⟩ := keyword_lower hk (by decide) (by intro c t e; cases e; rfl) []
    rw [List.append_nil] at ht
    rw [List.cons_append, readHeader, ht, if_neg (by rw [startsWith_not (by decide) (by decide)]; simp),
      if_neg (by rw [startsWith_not (by decide) (by decide)]; simp), if_neg (by rw [startsWith_not (by decide) (by decide)]; simp),
      if_neg (by rw [startsWith_not (by decide) (by decide)]; simp),
      if_pos (startsWith_append _ _), readLabels_ok hg rest 0 (by rw [hs.1]; simp) hs.2]
    rfl

theorem readHeader_secs {n nm : Nat} {secs : List Sec} {blocks : List (List Text)} (hb : List.Forall₂ Sec.Lines secs blocks) :
    (∀ s ∈ secs, s.Ok n nm) → ∀ (k : Nat) (h : Header) (rest : List Text),
    readHeader n nm (k + secs.length) h (blocks.flatten ++ rest) = readHeader n nm k (secs.foldl Header.add h) rest := by
  induction hb with
  | nil => intro _ k h rest; rfl
  | @cons s ls secs blocks hl _ ih =>
    intro hs k h rest
    rw [List.flatten_cons, List.append_assoc, List.length_cons, ← Nat.add_assoc, readHeader_sec (hs s (by simp)) hl,
      ih fun x hx => hs x (by simp [hx])]
    rfl

theorem readHeader_data {n nm : Nat} (k : Nat) (h : Header) {d : Text} (hd : Keyword "data:".toList d) (rest : List Text) :
    readHeader n nm (k + 1) h (d :: rest) = .ok (h, rest) := by
  obtain ⟨t, ht⟩ := keyword_lower hd (by decide) (by intro c t e; cases e; rfl) []
  rw [List.append_nil] at ht
  rw [readHeader, ht]
  rfl

theorem readHeader_embedded {n nm : Nat} (k : Nat) (h : Header) {d : Text} (hd : Keyword "labels embedded".toList d) (rest : List Text) :
    readHeader n nm (k + 1) h (d :: rest) = readHeader n nm k { h with embedded := true } rest := by
  obtain ⟨t, ht⟩ := keyword_lower hd (by decide) (by intro c t e; cases e; rfl) []
  rw [List.append_nil] at ht
  rw [readHeader, ht]
  rfl

theorem secs_length {secs : List Sec} {blocks : List (List Text)} (hb : List.Forall₂ Sec.Lines secs blocks) :
    secs.length ≤ blocks.flatten.length := by
  induction hb with
  | nil => simp
  | @cons s ls secs blocks hl _ ih =>
    rw [List.flatten_cons, List.length_append, List.length_cons]
    have : 1 ≤ ls.length := by cases hl <;> simp
    omega

theorem foldl_add (secs : List Sec) : ∀ h : Header,
    (secs.foldl Header.add h).embedded = h.embedded ∧
    (secs.foldl Header.add h).labels = (secs.foldl (fun r s => (Sec.labels? s).or r) h.labels) ∧
    (secs.foldl Header.add h).rlabels = (secs.foldl (fun r s => (Sec.rowLabels? s).or r) h.rlabels) ∧
    (secs.foldl Header.add h).clabels = (secs.foldl (fun r s => (Sec.colLabels? s).or r) h.clabels) ∧
    (secs.foldl Header.add h).llabels = (secs.foldl (fun r s => (Sec.levelLabels? s).or r) h.llabels) := by
  induction secs with
  | nil => intro h; exact ⟨rfl, rfl, rfl, rfl, rfl⟩
  | cons s secs ih =>
    intro h
    simp only [List.foldl_cons]
    obtain ⟨h1, h2, h3, h4, h5⟩ := ih (h.add s)
    rw [h1, h2, h3, h4, h5]
    cases s <;> exact ⟨rfl, rfl, rfl, rfl, rfl⟩

/-! ### Rows -/

theorem dataRows_blank {n : Nat} (hn : 0 < n) (lines : List Text) (h : ∀ l ∈ lines, Blank l) : dataRows n [] lines = [] := by
  induction lines with
  | nil => rfl
  | cons l lines ih =>
    have : words l = [] := words_fields (.nil (h l (by simp)))
    rw [dataRows, this, List.append_nil, if_pos (by simpa using hn)]
    exact ih fun x hx => h x (by simp [hx])

theorem dataRows_block {n : Nat} {block : List Text} {fields : List (List Text)} (hf : List.Forall₂ Fields block fields)
    (rest : List Text) : ∀ cur : List Text, block ≠ [] → n ≤ (cur ++ fields.flatten).length →
    (cur ++ fields.dropLast.flatten).length < n ∨ block.length = 1 →
    dataRows n cur (block ++ rest) = (cur ++ fields.flatten) :: dataRows n [] rest := by
  induction hf with
  | nil => intro cur h; exact absurd rfl h
  | @cons l ws block fields hl hf ih =>
    intro cur _ h1 h2
    rw [List.cons_append, dataRows, words_fields hl]
    cases hf with
    | nil =>
      rw [List.flatten_cons, List.flatten_nil, List.append_nil] at h1 ⊢
      rw [if_neg (by omega), List.nil_append]
    | @cons l' ws' block' fields' hl' hf' =>
      have h2' : (cur ++ ((ws :: ws' :: fields').dropLast).flatten).length < n := by
        rcases h2 with h2 | h2
        · exact h2
        · simp at h2
      rw [List.dropLast_cons_cons, List.flatten_cons, ← List.append_assoc] at h2'
      have h3 : (cur ++ ws).length < n := by
        rw [List.length_append] at h2'
        omega
      rw [if_pos h3, ih (cur ++ ws) (by simp) (by rw [List.append_assoc]; simpa using h1) (Or.inl h2')]
      simp [List.append_assoc]

theorem dataRows_rows {n e : Nat} {lines : List Text} {rows : List (List Text)} (h : Rows n e lines rows) :
    dataRows n [] lines = rows := by
  induction h with
  | @nil lines h1 h2 =>
    cases lines with
    | nil => rfl
    | cons l lines => exact dataRows_blank (h1 (by simp)) _ h2
  | @row block rest fields rows hb hf hl hd _ ih =>
    rw [dataRows_block hf rest [] hb (by rw [List.nil_append, hl]; omega) (by simpa using hd), ih, List.nil_append]

theorem rows_length {n e : Nat} {lines : List Text} {rows : List (List Text)} (h : Rows n e lines rows) :
    ∀ r ∈ rows, r.length = n + e := by
  induction h with
  | nil => simp
  | row hb hf hl hd _ ih =>
    intro r hr
    rcases List.mem_cons.1 hr with rfl | hr
    · exact hl
    · exact ih r hr

end Pymnet
