import Verif.Spec.Json

/-! Proofs for C151 and C152: the readers of JSON texts and of literals read what is written. -/

set_option linter.unusedSectionVars false
set_option linter.unusedSimpArgs false

namespace Pymnet

open Py WebPlot Spec

/-! ### Characters and code units -/

theorem hexVal_hexDigit : ∀ n < 16, hexVal (hexDigit n) = some n := by decide

theorem hex4_uEscape {n : Nat} (h : n < 65536) :
    hex4 (hexDigit (n / 4096 % 16)) (hexDigit (n / 256 % 16)) (hexDigit (n / 16 % 16)) (hexDigit (n % 16)) = some n := by
  unfold hex4
  rw [hexVal_hexDigit _ (Nat.mod_lt _ (by decide)), hexVal_hexDigit _ (Nat.mod_lt _ (by decide)), hexVal_hexDigit _ (Nat.mod_lt _ (by decide)),
    hexVal_hexDigit _ (Nat.mod_lt _ (by decide))]
  simp only [Option.some.injEq]
  omega

theorem toNat_bounds (c : Char) : c.toNat < 55296 ∨ (57343 < c.toNat ∧ c.toNat < 1114112) := c.valid

theorem ofUnits_units (c : Char) (u : List Nat) : ofUnits (units c ++ u) = (ofUnits u).map fun t => c :: t := by
  have hb := toNat_bounds c
  unfold units
  split
  · rename_i h
    rw [List.cons_append, List.nil_append, ofUnits.eq_def]
    simp only
    rw [if_neg (by omega), if_neg (by omega), Char.ofNat_toNat]
  · rename_i h
    rw [List.cons_append, List.cons_append, List.nil_append, ofUnits.eq_def]
    simp only
    rw [if_pos (by omega), if_pos (by omega)]
    have : 65536 + (55296 + (c.toNat - 65536) / 1024 - 55296) * 1024 + (56320 + (c.toNat - 65536) % 1024 - 56320) = c.toNat := by omega
    rw [this, Char.ofNat_toNat]

theorem ofUnits_text (t : Text) : ofUnits (t.flatMap units) = some t := by
  induction t with
  | nil => simp [ofUnits]
  | cons c t ih => rw [List.flatMap_cons, ofUnits_units, ih]; rfl

/-- Internal: the reader of JSON strings goes over `s` and has read the text `t`. -/
def JReads (s t : Text) : Prop := ∀ r, jsonUnits (s ++ r) = (jsonUnits r).map fun p => (t.flatMap units ++ p.1, p.2)

/-- Internal: the same for literals. -/
def LReads (s t : Text) : Prop := ∀ r, jsUnits (s ++ r) = (jsUnits r).map fun p => (t.flatMap units ++ p.1, p.2)

theorem JReads.append {s t s' t' : Text} (h : JReads s t) (h' : JReads s' t') : JReads (s ++ s') (t ++ t') := by
  intro r
  rw [List.append_assoc, h, h', Option.map_map]
  simp [Function.comp_def]

theorem LReads.append {s t s' t' : Text} (h : LReads s t) (h' : LReads s' t') : LReads (s ++ s') (t ++ t') := by
  intro r
  rw [List.append_assoc, h, h', Option.map_map]
  simp [Function.comp_def]

theorem JReads.nil : JReads [] [] := fun r => by simp

theorem LReads.nil : LReads [] [] := fun r => by simp

theorem JReads.flatMap {f : Char → Text} {t : Text} (h : ∀ c ∈ t, JReads (f c) [c]) : JReads (t.flatMap f) t := by
  induction t with
  | nil => exact .nil
  | cons c t ih => exact (h c (by simp)).append (ih fun d hd => h d (by simp [hd]))

theorem LReads.flatMap {f : Char → Text} {t : Text} (h : ∀ c ∈ t, LReads (f c) [c]) : LReads (t.flatMap f) t := by
  induction t with
  | nil => exact .nil
  | cons c t ih => exact (h c (by simp)).append (ih fun d hd => h d (by simp [hd]))

theorem jreads_raw {c : Char} (h1 : 32 ≤ c.toNat) (h2 : c ≠ '"') (h3 : c ≠ '\\') : JReads [c] [c] := by
  intro r
  rw [List.singleton_append, jsonUnits.eq_def]
  split <;> simp_all

theorem lreads_raw {c : Char} (h1 : 32 ≤ c.toNat) (h2 : c ≠ '\'') (h3 : c ≠ '\\') : LReads [c] [c] := by
  have hn : c ≠ '\n' := by rintro rfl; revert h1; decide
  have hr : c ≠ '\r' := by rintro rfl; revert h1; decide
  intro r
  rw [List.singleton_append, jsUnits.eq_def]
  split <;> simp_all

theorem junits_uEscape {n : Nat} (h : n < 65536) (r : Text) : jsonUnits (uEscape n ++ r) = (jsonUnits r).map fun p => (n :: p.1, p.2) := by
  simp only [uEscape, List.cons_append, List.nil_append]
  rw [jsonUnits, hex4_uEscape h]

theorem lunits_uEscape {n : Nat} (h : n < 65536) (r : Text) : jsUnits (uEscape n ++ r) = (jsUnits r).map fun p => (n :: p.1, p.2) := by
  simp only [uEscape, List.cons_append, List.nil_append]
  rw [jsUnits, hex4_uEscape h]

theorem jreads_char (c : Char) : JReads (jsonChar c) [c] := by
  have hb := toNat_bounds c
  unfold jsonChar
  split
  · rename_i h; subst h; intro r; simp [jsonUnits, units]
  split
  · rename_i h; subst h; intro r; simp [jsonUnits, units]
  split
  · rename_i h; subst h; intro r; simp [jsonUnits, units]
  split
  · rename_i h; subst h; intro r; simp [jsonUnits, units]
  split
  · rename_i h; subst h; intro r; simp [jsonUnits, units]
  split
  · rename_i h; subst h; intro r; simp [jsonUnits, units]
  split
  · rename_i h; subst h; intro r; simp [jsonUnits, units]
  split
  · rename_i h1 h2 _ _ _ _ _ h; exact jreads_raw h.1 h1 h2
  split
  · rename_i h
    intro r
    rw [junits_uEscape h]
    simp [units, h]
  · rename_i h
    intro r
    rw [List.append_assoc, junits_uEscape (by omega), junits_uEscape (by omega), Option.map_map]
    simp [units, h, Function.comp_def]

theorem lreads_char {c : Char} (h0 : 32 ≤ c.toNat) (h1 : c ≠ '"') (h2 : c ≠ '\'') (h3 : c ≠ '\\') : LReads (jsonChar c) [c] := by
  have hb := toNat_bounds c
  have hne : ∀ e : Char, e.toNat < 32 → c ≠ e := by rintro e he rfl; omega
  rw [jsonChar, if_neg h1, if_neg h3, if_neg (hne _ (by decide)), if_neg (hne _ (by decide)), if_neg (hne _ (by decide)),
    if_neg (hne _ (by decide)), if_neg (hne _ (by decide))]
  split
  · exact lreads_raw h0 h2 h3
  split
  · rename_i h
    intro r
    rw [lunits_uEscape h]
    simp [units, h]
  · rename_i h
    intro r
    rw [List.append_assoc, lunits_uEscape (by omega), lunits_uEscape (by omega), Option.map_map]
    simp [units, h, Function.comp_def]

theorem jsonString_reads {s t : Text} (h : JReads s t) (r : Text) : jsonString (s ++ '"' :: r) = some (t, r) := by
  unfold jsonString
  rw [h]
  simp [jsonUnits, ofUnits_text]

/-! ### Values -/

/-- Internal: the text may follow a value. -/
def Stops (r : Text) : Prop := r = [] ∨ ∃ r', r = ',' :: r' ∨ r = '}' :: r' ∨ r = ']' :: r'

/-- Internal: the text is read as the value wherever it is followed by a comma or a closing bracket. -/
def Parses (t : Text) (v : JVal) : Prop := ∃ N, ∀ n ≥ N, ∀ r, Stops r → jsonVal n (t ++ r) = some (v, r)

/-- Internal: the same for items and members, with the closing bracket. -/
def ItemsParse (t : Text) (l : List JVal) : Prop := ∃ N, ∀ n ≥ N, ∀ r, jsonItems n (t ++ r) = some (l, r)

def MembersParse (t : Text) (l : List (Text × JVal)) : Prop := ∃ N, ∀ n ≥ N, ∀ r, jsonMembers n (t ++ r) = some (l, r)

theorem skipSpace_space (t : Text) : skipSpace (' ' :: t) = skipSpace t := by simp [skipSpace]

theorem skipSpace_char {c : Char} (h : ¬ (c = ' ' ∨ c = '\t' ∨ c = '\n' ∨ c = '\r')) (t : Text) : skipSpace (c :: t) = c :: t := by
  simp only [skipSpace]; rw [if_neg h]

theorem Parses.space {t : Text} {v : JVal} (h : Parses t v) : Parses (' ' :: t) v := by
  obtain ⟨N, h⟩ := h
  refine ⟨N, fun n hn r hr => ?_⟩
  rw [← h n hn r hr]
  cases n with
  | zero => simp [jsonVal]
  | succ n => rw [List.cons_append, jsonVal, jsonVal, skipSpace_space]

theorem ItemsParse.space {t : Text} {l : List JVal} (h : ItemsParse t l) : ItemsParse (' ' :: t) l := by
  obtain ⟨N, h⟩ := h
  refine ⟨N, fun n hn r => ?_⟩
  rw [← h n hn r]
  cases n with
  | zero => simp [jsonItems]
  | succ n =>
    cases n with
    | zero => simp [jsonItems, jsonVal]
    | succ n => rw [List.cons_append, jsonItems, jsonItems, jsonVal, jsonVal, skipSpace_space]

theorem MembersParse.space {t : Text} {l : List (Text × JVal)} (h : MembersParse t l) : MembersParse (' ' :: t) l := by
  obtain ⟨N, h⟩ := h
  refine ⟨N, fun n hn r => ?_⟩
  rw [← h n hn r]
  cases n with
  | zero => simp [jsonMembers]
  | succ n => rw [List.cons_append, jsonMembers, jsonMembers, skipSpace_space]

theorem parses_str {s t : Text} (h : JReads s t) : Parses ('"' :: (s ++ ['"'])) (.str t) := by
  refine ⟨1, fun n hn r _ => ?_⟩
  obtain ⟨n, rfl⟩ : ∃ m, n = m + 1 := ⟨n - 1, by omega⟩
  rw [List.cons_append, List.append_assoc, List.singleton_append, jsonVal, skipSpace_char (by decide)]
  simp [jsonString_reads h]

theorem jsonNat_digits (n : Nat) {r : Text} (hr : Stops r) : jsonNat (Nat.toDigits 10 n ++ r) = some (n, r) := by
  have hd : ∀ c ∈ Nat.toDigits 10 n, c.isDigit = true := fun c hc => Nat.isDigit_of_mem_toDigits (by decide) (by decide) hc
  have hr' : r.takeWhile Char.isDigit = [] ∧ r.dropWhile Char.isDigit = r := by
    rcases hr with rfl | ⟨r', rfl | rfl | rfl⟩
    · simp
    all_goals (constructor <;> simp [List.takeWhile, List.dropWhile, Char.isDigit])
  have h1 : (Nat.toDigits 10 n ++ r).takeWhile Char.isDigit = Nat.toDigits 10 n := by
    rw [List.takeWhile_append_of_pos hd, hr'.1, List.append_nil]
  have h2 : (Nat.toDigits 10 n ++ r).dropWhile Char.isDigit = r := by
    rw [List.dropWhile_append_of_pos hd, hr'.2]
  have h3 : (Nat.toDigits 10 n).foldl (fun a c => a * 10 + (c.toNat - 48)) 0 = n := by
    have := Nat.ofDigitChars_ten_toDigits (n := n)
    rw [Nat.ofDigitChars_eq_foldl] at this
    rw [← this]
    congr 1
    · funext a c; rw [Nat.mul_comm]; rfl
    · rw [this]
  unfold jsonNat
  rw [h1, h2, h3, if_neg Nat.toDigits_ne_nil]
  rcases hr with rfl | ⟨r', rfl | rfl | rfl⟩ <;> simp

theorem parses_int (n : Int) : Parses (intText n) (.num n) := by
  refine ⟨1, fun k hk r hr => ?_⟩
  obtain ⟨k, rfl⟩ : ∃ m, k = m + 1 := ⟨k - 1, by omega⟩
  cases n with
  | negSucc n =>
    rw [intText, List.cons_append, jsonVal, skipSpace_char (by decide)]
    simp only [jsonNat_digits _ hr]
    rfl
  | ofNat n =>
    have hd : ∀ c ∈ Nat.toDigits 10 n, c.isDigit = true := fun c hc => Nat.isDigit_of_mem_toDigits (by decide) (by decide) hc
    have hne : Nat.toDigits 10 n ≠ [] := Nat.toDigits_ne_nil
    have hj := jsonNat_digits n hr
    rw [intText]
    cases hl : Nat.toDigits 10 n with
    | nil => exact absurd hl hne
    | cons c t =>
      rw [hl] at hj
      have hc : c.isDigit = true := hd c (by rw [hl]; simp)
      have nc : ∀ d : Char, d.isDigit = false → c ≠ d := by rintro d h rfl; rw [hc] at h; cases h
      rw [List.cons_append] at hj ⊢
      rw [jsonVal, skipSpace_char (by
        rintro (rfl | rfl | rfl | rfl) <;> revert hc <;> decide)]
      split
      · rename_i h; exact absurd (List.cons.inj h).1 (nc _ (by decide))
      · rename_i h; exact absurd (List.cons.inj h).1 (nc _ (by decide))
      · rename_i h; exact absurd (List.cons.inj h).1 (nc _ (by decide))
      · rename_i h; exact absurd (List.cons.inj h).1 (nc _ (by decide))
      · rw [hj]; rfl

theorem items_last {t : Text} {v : JVal} (h : Parses t v) : ItemsParse (t ++ [']']) [v] := by
  obtain ⟨N, h⟩ := h
  refine ⟨N + 1, fun n hn r => ?_⟩
  obtain ⟨n, rfl⟩ : ∃ m, n = m + 1 := ⟨n - 1, by omega⟩
  rw [List.append_assoc, List.singleton_append, jsonItems, h n (by omega) _ (Or.inr ⟨r, Or.inr (Or.inr rfl)⟩)]
  simp only [skipSpace_char (c := ']') (by decide)]

theorem items_cons {t s : Text} {v : JVal} {l : List JVal} (h : Parses t v) (h' : ItemsParse s l) : ItemsParse (t ++ ',' :: s) (v :: l) := by
  obtain ⟨N, h⟩ := h
  obtain ⟨M, h'⟩ := h'
  refine ⟨N + M + 1, fun n hn r => ?_⟩
  obtain ⟨n, rfl⟩ : ∃ m, n = m + 1 := ⟨n - 1, by omega⟩
  rw [List.append_assoc, List.cons_append, jsonItems, h n (by omega) _ (Or.inr ⟨s ++ r, Or.inl rfl⟩)]
  simp only [skipSpace_char (c := ',') (by decide), h' n (by omega) r]
  rfl

theorem parses_list {l : List (Text × JVal)} (h : ∀ p ∈ l, Parses p.1 p.2) : Parses (jsonList (l.map (·.1))) (.arr (l.map (·.2))) := by
  cases l with
  | nil =>
    refine ⟨1, fun n hn r _ => ?_⟩
    obtain ⟨n, rfl⟩ : ∃ m, n = m + 1 := ⟨n - 1, by omega⟩
    have h1 : jsonItems n (']' :: r) = none := by
      cases n with
      | zero => simp [jsonItems]
      | succ n =>
        cases n with
        | zero => simp [jsonItems, jsonVal]
        | succ n => simp [jsonItems, jsonVal, skipSpace, jsonNat, Char.isDigit]
    simp only [jsonList, List.map_nil, List.intersperse, List.flatten_nil, List.nil_append, List.cons_append]
    rw [jsonVal, skipSpace_char (by decide)]
    simp only [h1, skipSpace_char (c := ']') (by decide)]
  | cons p l =>
    have key : ∀ (p : Text × JVal) l, (∀ q ∈ p :: l, Parses q.1 q.2) →
        ItemsParse ((((p :: l).map (·.1)).intersperse ", ".toList).flatten ++ [']']) ((p :: l).map (·.2)) := by
      intro p l
      induction l generalizing p with
      | nil => intro h; simpa using items_last (h p (by simp))
      | cons q l ih =>
        intro h
        have := items_cons (h p (by simp)) (ih q fun x hx => h x (by simp [hx])).space
        simpa using this
    obtain ⟨N, hk⟩ := key p l h
    refine ⟨N + 1, fun n hn r _ => ?_⟩
    obtain ⟨n, rfl⟩ : ∃ m, n = m + 1 := ⟨n - 1, by omega⟩
    rw [jsonList, List.cons_append, jsonVal, skipSpace_char (by decide)]
    simp only [hk n (by omega) r]

theorem members_last {k t : Text} {v : JVal} (hk : JReads k k) (h : Parses t v) : MembersParse ('"' :: (k ++ '"' :: ':' :: (t ++ ['}']))) [(k, v)] := by
  obtain ⟨N, h⟩ := h
  refine ⟨N + 1, fun n hn r => ?_⟩
  obtain ⟨n, rfl⟩ : ∃ m, n = m + 1 := ⟨n - 1, by omega⟩
  simp only [List.cons_append, List.append_assoc, List.nil_append]
  rw [jsonMembers, skipSpace_char (by decide)]
  simp only [jsonString_reads hk, skipSpace_char (c := ':') (by decide), h n (by omega) _ (Or.inr ⟨r, Or.inr (Or.inl rfl)⟩),
    skipSpace_char (c := '}') (by decide)]

theorem members_cons {k t s : Text} {v : JVal} {l : List (Text × JVal)} (hk : JReads k k) (h : Parses t v) (h' : MembersParse s l) :
    MembersParse ('"' :: (k ++ '"' :: ':' :: (t ++ ',' :: s))) ((k, v) :: l) := by
  obtain ⟨N, h⟩ := h
  obtain ⟨M, h'⟩ := h'
  refine ⟨N + M + 1, fun n hn r => ?_⟩
  obtain ⟨n, rfl⟩ : ∃ m, n = m + 1 := ⟨n - 1, by omega⟩
  simp only [List.cons_append, List.append_assoc, List.nil_append]
  rw [jsonMembers, skipSpace_char (by decide)]
  simp only [jsonString_reads hk, skipSpace_char (c := ':') (by decide), h n (by omega) _ (Or.inr ⟨s ++ r, Or.inl rfl⟩),
    skipSpace_char (c := ',') (by decide), h' n (by omega) r]
  rfl

theorem parses_obj {s : Text} {l : List (Text × JVal)} (h : MembersParse s l) : Parses ('{' :: s) (.obj l) := by
  obtain ⟨N, h⟩ := h
  refine ⟨N + 1, fun n hn r _ => ?_⟩
  obtain ⟨n, rfl⟩ : ∃ m, n = m + 1 := ⟨n - 1, by omega⟩
  rw [List.cons_append, jsonVal, skipSpace_char (by decide)]
  simp only [h n (by omega) r]

/-- Internal: the text of a network, with the texts of the names given. -/
def textWith (nt : JName → Text) (nodes layers : List JName) (links : List (Nat × Nat × Int × Nat)) : Text :=
  "{\"nodes\": ".toList ++ jsonList (nodes.map fun x => jsonNamed (nt x)) ++
    ", \"layers\": ".toList ++ jsonList (layers.map fun x => jsonNamed (nt x)) ++
    ", \"links\": ".toList ++ jsonList (links.map jsonLinkText) ++ ['}']

theorem jreads_key {k : Text} (h : (k.all fun c => 32 ≤ c.toNat ∧ c ≠ '"' ∧ c ≠ '\\') = true) : JReads k k := by
  have := JReads.flatMap (f := fun c => [c]) (t := k) (fun c hc => by
    have := List.all_eq_true.1 h c hc
    simp only [decide_eq_true_eq] at this
    exact jreads_raw this.1 this.2.1 this.2.2)
  simpa using this

theorem jsonNamed_eq (x : Text) : jsonNamed x = '{' :: ('"' :: ("name".toList ++ '"' :: ':' :: ((' ' :: x) ++ ['}']))) := by
  unfold jsonNamed
  rw [show "{\"name\": ".toList = '{' :: '"' :: ("name".toList ++ ['"', ':', ' ']) from by decide]
  simp only [List.cons_append, List.append_assoc, List.nil_append]

theorem jsonLinkText_eq (e : Nat × Nat × Int × Nat) : jsonLinkText e =
    '{' :: ('"' :: ("source".toList ++ '"' :: ':' :: ((' ' :: intText e.1) ++ ',' :: (' ' :: ('"' :: ("target".toList ++ '"' :: ':' ::
      ((' ' :: intText e.2.1) ++ ',' :: (' ' :: ('"' :: ("value".toList ++ '"' :: ':' :: ((' ' :: intText e.2.2.1) ++ ',' :: (' ' :: ('"' ::
        ("layer".toList ++ '"' :: ':' :: ((' ' :: intText e.2.2.2) ++ ['}']))))))))))))))) := by
  unfold jsonLinkText
  rw [show "{\"source\": ".toList = '{' :: '"' :: ("source".toList ++ ['"', ':', ' ']) from by decide,
    show ", \"target\": ".toList = ',' :: ' ' :: '"' :: ("target".toList ++ ['"', ':', ' ']) from by decide,
    show ", \"value\": ".toList = ',' :: ' ' :: '"' :: ("value".toList ++ ['"', ':', ' ']) from by decide,
    show ", \"layer\": ".toList = ',' :: ' ' :: '"' :: ("layer".toList ++ ['"', ':', ' ']) from by decide]
  simp only [List.cons_append, List.append_assoc, List.nil_append]

theorem textWith_eq (nt : JName → Text) (nodes layers : List JName) (links : List (Nat × Nat × Int × Nat)) : textWith nt nodes layers links =
    '{' :: ('"' :: ("nodes".toList ++ '"' :: ':' :: ((' ' :: jsonList (nodes.map fun x => jsonNamed (nt x))) ++ ',' :: (' ' :: ('"' ::
      ("layers".toList ++ '"' :: ':' :: ((' ' :: jsonList (layers.map fun x => jsonNamed (nt x))) ++ ',' :: (' ' :: ('"' :: ("links".toList ++ '"' ::
        ':' :: ((' ' :: jsonList (links.map jsonLinkText)) ++ ['}'])))))))))))  := by
  unfold textWith
  rw [show "{\"nodes\": ".toList = '{' :: '"' :: ("nodes".toList ++ ['"', ':', ' ']) from by decide,
    show ", \"layers\": ".toList = ',' :: ' ' :: '"' :: ("layers".toList ++ ['"', ':', ' ']) from by decide,
    show ", \"links\": ".toList = ',' :: ' ' :: '"' :: ("links".toList ++ ['"', ':', ' ']) from by decide]
  simp only [List.cons_append, List.append_assoc, List.nil_append]

/-- Internal. -/
theorem parses_map {β : Type} {l : List β} {f : β → Text} {g : β → JVal} (h : ∀ x ∈ l, Parses (f x) (g x)) :
    Parses (jsonList (l.map f)) (.arr (l.map g)) := by
  have := parses_list (l := l.map fun x => (f x, g x)) (by
    intro p hp
    obtain ⟨x, hx, rfl⟩ := List.mem_map.1 hp
    exact h x hx)
  rwa [List.map_map, List.map_map] at this

theorem parses_net {nt : JName → Text} {nodes layers : List JName} (hn : ∀ x ∈ nodes, Parses (nt x) (nameVal x))
    (hl : ∀ x ∈ layers, Parses (nt x) (nameVal x)) (links : List (Nat × Nat × Int × Nat)) :
    Parses (textWith nt nodes layers links) (netVal nodes layers links) := by
  have hname : ∀ x, Parses (nt x) (nameVal x) → Parses (jsonNamed (nt x)) (.obj [("name".toList, nameVal x)]) := by
    intro x h
    rw [jsonNamed_eq]
    exact parses_obj (members_last (jreads_key (by decide)) h.space)
  have hlink : ∀ e ∈ links, Parses (jsonLinkText e) (.obj [("source".toList, .num e.1), ("target".toList, .num e.2.1), ("value".toList, .num e.2.2.1),
      ("layer".toList, .num e.2.2.2)]) := by
    intro e _
    rw [jsonLinkText_eq]
    exact parses_obj (members_cons (jreads_key (by decide)) (parses_int e.1).space (members_cons (jreads_key (by decide)) (parses_int e.2.1).space
      (members_cons (jreads_key (by decide)) (parses_int e.2.2.1).space (members_last (jreads_key (by decide)) (parses_int e.2.2.2).space).space).space).space)
  rw [textWith_eq]
  exact parses_obj (members_cons (jreads_key (by decide)) (parses_map fun x hx => hname x (hn x hx)).space
    (members_cons (jreads_key (by decide)) (parses_map fun x hx => hname x (hl x hx)).space
      (members_last (jreads_key (by decide)) (parses_map hlink).space).space).space)

theorem parses_name (x : JName) : Parses (jsonName x) (nameVal x) := by
  cases x with
  | int n => exact parses_int n
  | str t => exact parses_str (JReads.flatMap fun c _ => jreads_char c)

theorem Parses.isJson {t : Text} {v : JVal} (h : Parses t v) : IsJson t v := by
  obtain ⟨N, h⟩ := h
  exact ⟨N, fun n hn => by simpa using h n hn [] (Or.inl rfl)⟩

theorem jsonText_eq (nodes layers : List JName) (links : List (Nat × Nat × Int × Nat)) :
    jsonText ⟨nodes, layers.map .el, links⟩ = textWith jsonName nodes layers links := by
  unfold jsonText textWith
  simp only [List.map_map]
  rfl

end Pymnet
