import Verif.Proofs.Json
import Verif.Props.NetIO

/-! C151: `webplot` (/repo/pymnet/visuals/webplots.py); C152: the text of `write_json` (/repo/pymnet/netio.py 11-44). -/

set_option linter.unusedSectionVars false
set_option linter.unusedSimpArgs false

namespace Pymnet

open Py MPlex WebPlot Spec

/-- An integer, or a string without control characters, quotes, backslash and `<`. -/
def Spec.PlainName : JName → Prop
  | .int _ => True
  | .str t => ∀ c ∈ t, 32 ≤ c.toNat ∧ c ≠ '"' ∧ c ≠ '\'' ∧ c ≠ '\\' ∧ c ≠ '<'

/-! ### Internal lemmas -/

theorem beforeFirst_safe {t : Text} (ht : ∀ c ∈ t, c ≠ '<') (k r : Text) :
    beforeFirst ('<' :: k) (t ++ r) = t ++ beforeFirst ('<' :: k) r := by
  induction t with
  | nil => rfl
  | cons c t ih =>
    have h : ('<' :: k).isPrefixOf (c :: (t ++ r)) = false := by
      have := ht c (by simp)
      simp [List.isPrefixOf, Ne.symm this]
    rw [List.cons_append, beforeFirst, h]
    simp [ih fun d hd => ht d (by simp [hd])]

/-- `key` does not begin in the first of two texts. -/
def clearOf (key : Text) : Text → Text → Bool
  | [], _ => true
  | c :: t, r => !(key.isPrefixOf (c :: (t ++ r))) && clearOf key t r

theorem isPrefixOf_append {k s : Text} (h : k.length ≤ s.length) (r : Text) : k.isPrefixOf (s ++ r) = k.isPrefixOf s := by
  induction k generalizing s with
  | nil => simp
  | cons a k ih =>
    cases s with
    | nil => simp at h
    | cons b s =>
      simp only [List.cons_append, List.isPrefixOf]
      rw [ih (by simpa using h)]

theorem clearOf_append {key s : Text} (t r : Text) (h : clearOf key s (key ++ t) = true) : clearOf key s (key ++ (t ++ r)) = true := by
  induction s with
  | nil => rfl
  | cons c s ih =>
    simp only [clearOf, Bool.and_eq_true] at h ⊢
    refine ⟨?_, ih h.2⟩
    rw [← h.1, ← List.append_assoc key, ← List.append_assoc s, ← List.cons_append, isPrefixOf_append (by simp; omega)]

theorem afterFirst_clear {key s : Text} (hk : key ≠ []) (h : clearOf key s key = true) (r : Text) :
    afterFirst key (s ++ key ++ r) = some r := by
  have h' : clearOf key s (key ++ r) = true := by
    have := clearOf_append (key := key) (s := s) [] r (by simpa using h)
    simpa using this
  clear h
  induction s with
  | nil =>
    cases key with
    | nil => exact absurd rfl hk
    | cons a k =>
      have : (a :: k).isPrefixOf (a :: (k ++ r)) = true := by rw [List.isPrefixOf_iff_prefix]; exact ⟨r, rfl⟩
      simp only [List.nil_append, List.cons_append, afterFirst]
      rw [if_pos this]
      simp
  | cons c s ih =>
    simp only [clearOf, Bool.and_eq_true, Bool.not_eq_true'] at h'
    simp only [List.cons_append, afterFirst, List.append_assoc]
    rw [h'.1, if_neg (by simp), ← List.append_assoc]
    exact ih h'.2

theorem replaceFrom_skip (key val : Text) (s r : Text) : replaceFrom key val s.length (s ++ r) = replaceFrom key val 0 r := by
  induction s with
  | nil => rfl
  | cons c s ih => simpa [replaceFrom] using ih

theorem replaceFrom_none {key val s : Text} (h : clearOf key s [] = true) : replaceFrom key val 0 s = s := by
  induction s with
  | nil => simp [replaceFrom]
  | cons c s ih =>
    simp only [clearOf, Bool.and_eq_true, Bool.not_eq_true', List.append_nil] at h
    simp only [replaceFrom, h.1]
    rw [ih h.2]
    simp

theorem replaceFrom_once {key val s r : Text} (hk : key ≠ []) (h : clearOf key s key = true) (hr : clearOf key r [] = true) :
    replaceFrom key val 0 (s ++ key ++ r) = s ++ val ++ r := by
  have h' : clearOf key s (key ++ r) = true := by
    have := clearOf_append (key := key) (s := s) [] r (by simpa using h)
    simpa using this
  clear h
  induction s with
  | nil =>
    cases key with
    | nil => exact absurd rfl hk
    | cons a k =>
      have : (a :: k).isPrefixOf (a :: (k ++ r)) = true := by rw [List.isPrefixOf_iff_prefix]; exact ⟨r, rfl⟩
      simp only [List.nil_append, List.cons_append, replaceFrom]
      rw [if_pos this, List.length_cons, Nat.add_sub_cancel, replaceFrom_skip, replaceFrom_none hr]
  | cons c s ih =>
    simp only [clearOf, Bool.and_eq_true, Bool.not_eq_true'] at h'
    simp only [List.cons_append, replaceFrom, List.append_assoc]
    rw [h'.1, if_neg (by simp), ← List.append_assoc, ih h'.2, List.append_assoc]

/-- the template before the call of `JSON.parse` -/
def templateHead : Text := "\n<script src=\"http://d3js.org/d3.v3.min.js\"></script>\n<script>\n var mpnet = ".toList

/-- the template from the end of the literal on, after the closing quote -/
def templateTail : Text := template.drop (templateHead.length + 21)

theorem template_split : template = templateHead ++ "JSON.parse('".toList ++ "@netjson".toList ++ '\'' :: templateTail := by decide +kernel

theorem template_tail_once : clearOf "@netjson".toList ('\'' :: templateTail) [] = true := by decide +kernel

theorem page_text (val : Text) : replaceFrom "@netjson".toList val 0 template =
    templateHead ++ "JSON.parse('".toList ++ (val ++ '\'' :: templateTail) := by
  rw [template_split, replaceFrom_once (by decide) (by decide +kernel) template_tail_once, List.append_assoc _ val]

/-- Internal: the text has no `<`, and the reader of literals goes over it and has read the text `t`. -/
def Safe (s t : Text) : Prop := (∀ c ∈ s, c ≠ '<') ∧ LReads s t

theorem Safe.append {s t s' t' : Text} (h : Safe s t) (h' : Safe s' t') : Safe (s ++ s') (t ++ t') :=
  ⟨fun c hc => (List.mem_append.1 hc).elim (h.1 c) (h'.1 c), h.2.append h'.2⟩

theorem safe_raw {t : Text} (h : ∀ c ∈ t, 32 ≤ c.toNat ∧ c ≠ '\'' ∧ c ≠ '\\' ∧ c ≠ '<') : Safe t t := by
  refine ⟨fun c hc => (h c hc).2.2.2, ?_⟩
  have := LReads.flatMap (f := fun c => [c]) (t := t) (fun c hc => lreads_raw (h c hc).1 (h c hc).2.1 (h c hc).2.2.1)
  simpa using this

theorem safe_lit {t : Text} (h : (t.all fun c => 32 ≤ c.toNat ∧ c ≠ '\'' ∧ c ≠ '\\' ∧ c ≠ '<') = true) : Safe t t :=
  safe_raw fun c hc => by simpa using List.all_eq_true.1 h c hc

theorem safe_int (n : Int) : Safe (intText n) (intText n) := by
  have key : ∀ n, ∀ c ∈ Nat.toDigits 10 n, 32 ≤ c.toNat ∧ c ≠ '\'' ∧ c ≠ '\\' ∧ c ≠ '<' := by
    intro n c hc
    have h := Nat.isDigit_of_mem_toDigits (by decide) (by decide) hc
    refine ⟨?_, ?_, ?_, ?_⟩
    · simp only [Char.isDigit, Bool.and_eq_true, decide_eq_true_eq] at h
      have := UInt32.le_iff_toNat_le.1 h.1
      change 48 ≤ c.toNat at this
      omega
    all_goals (rintro rfl; revert h; decide)
  cases n with
  | ofNat n => exact safe_raw (key n)
  | negSucc n =>
    refine safe_raw fun c hc => ?_
    rcases List.mem_cons.1 hc with rfl | hc
    · decide
    · exact key _ c hc

/-- Internal: the text of a name after the literal has been read. -/
def rawName : JName → Text
  | .int n => intText n
  | .str t => '"' :: (t ++ ['"'])

theorem hexDigit_safe : ∀ n < 16, hexDigit n ≠ '<' := by decide

theorem jsonChar_safe {c : Char} (h : c ≠ '<') : ∀ d ∈ jsonChar c, d ≠ '<' := by
  have hu : ∀ n, ∀ d ∈ uEscape n, d ≠ '<' := by
    intro n d hd
    simp only [uEscape, List.mem_cons, List.not_mem_nil, or_false] at hd
    rcases hd with rfl | rfl | rfl | rfl | rfl | rfl
    · decide
    · decide
    all_goals exact hexDigit_safe _ (Nat.mod_lt _ (by decide))
  unfold jsonChar
  split; · decide
  split; · decide
  split; · decide
  split; · decide
  split; · decide
  split; · decide
  split; · decide
  split
  · intro d hd; rw [List.mem_singleton] at hd; subst hd; exact h
  split
  · exact hu _
  · intro d hd
    exact (List.mem_append.1 hd).elim (hu _ d) (hu _ d)

theorem safe_name {x : JName} (h : Spec.PlainName x) : Safe (jsonName x) (rawName x) := by
  cases x with
  | int n => exact safe_int n
  | str t =>
    have h1 : Safe (t.flatMap jsonChar) t := by
      refine ⟨fun c hc => ?_, LReads.flatMap fun c hc => ?_⟩
      · obtain ⟨d, hd, hc⟩ := List.mem_flatMap.1 hc
        exact jsonChar_safe (h d hd).2.2.2.2 c hc
      · obtain ⟨q1, q2, q3, q4, -⟩ := h c hc
        exact lreads_char q1 q2 q3 q4
    exact ((safe_lit (t := ['"']) (by decide)).append h1).append (safe_lit (t := ['"']) (by decide))

theorem safe_list {β : Type} {l : List β} {f g : β → Text} (h : ∀ x ∈ l, Safe (f x) (g x)) : Safe (jsonList (l.map f)) (jsonList (l.map g)) := by
  have key : Safe ((l.map f).intersperse ", ".toList).flatten ((l.map g).intersperse ", ".toList).flatten := by
    induction l with
    | nil => exact safe_lit (t := []) (by decide)
    | cons a l ih =>
      cases l with
      | nil => simpa using h a (by simp)
      | cons b l =>
        have h1 := ((h a (by simp)).append (safe_lit (t := ", ".toList) (by decide))).append (ih fun x hx => h x (by simp [hx]))
        simpa using h1
  exact ((safe_lit (t := ['[']) (by decide)).append key).append (safe_lit (t := [']']) (by decide))

theorem safe_net {nodes layers : List JName} (hn : ∀ x ∈ nodes, Spec.PlainName x) (hl : ∀ x ∈ layers, Spec.PlainName x)
    (links : List (Nat × Nat × Int × Nat)) : Safe (textWith jsonName nodes layers links) (textWith rawName nodes layers links) := by
  have named : ∀ x, Spec.PlainName x → Safe (jsonNamed (jsonName x)) (jsonNamed (rawName x)) := fun x hx =>
    ((safe_lit (by decide)).append (safe_name hx)).append (safe_lit (by decide))
  have link : ∀ e ∈ links, Safe (jsonLinkText e) (jsonLinkText e) := fun e _ =>
    ((((((((safe_lit (by decide)).append (safe_int _)).append (safe_lit (by decide))).append (safe_int _)).append (safe_lit (by decide))).append
      (safe_int _)).append (safe_lit (by decide))).append (safe_int _)).append (safe_lit (by decide))
  exact ((((((safe_lit (by decide)).append (safe_list fun x hx => named x (hn x hx))).append (safe_lit (by decide))).append
    (safe_list fun x hx => named x (hl x hx))).append (safe_lit (by decide))).append (safe_list link)).append (safe_lit (by decide))

theorem parses_raw {x : JName} (h : Spec.PlainName x) : Parses (rawName x) (nameVal x) := by
  cases x with
  | int n => exact parses_int n
  | str t =>
    have : JReads t t := by
      have := JReads.flatMap (f := fun c => [c]) (t := t) (fun c hc => jreads_raw (h c hc).1 (h c hc).2.1 (h c hc).2.2.2.1)
      simpa using this
    exact parses_str this

theorem passed_page {pre val t : Text} (hv : Safe val t) (hpre : clearOf "JSON.parse('".toList (pre ++ templateHead) "JSON.parse('".toList = true)
    (post : Text) : ∃ rest, Spec.passed (pre ++ replaceFrom "@netjson".toList val 0 template ++ post) = some (t, ");\n".toList ++ rest) := by
  have e : pre ++ replaceFrom "@netjson".toList val 0 template ++ post =
      (pre ++ templateHead) ++ "JSON.parse('".toList ++ (val ++ '\'' :: (templateTail ++ post)) := by
    rw [page_text]; simp only [List.append_assoc, List.cons_append]
  have e2 : "</script".toList = '<' :: "/script".toList := by decide
  have e3 : ∃ r, templateTail = ");\n".toList ++ r := ⟨templateTail.drop 3, by decide +kernel⟩
  obtain ⟨r, hr⟩ := e3
  refine ⟨beforeFirst "</script".toList (r ++ post), ?_⟩
  have e4 : "');\n".toList = '\'' :: ");\n".toList := by decide
  have e5 : '\'' :: (");\n".toList ++ r ++ post) = "');\n".toList ++ (r ++ post) := by
    rw [e4]; simp only [List.append_assoc, List.cons_append]
  unfold Spec.passed
  rw [e, afterFirst_clear (by decide) hpre]
  simp only
  rw [e2, beforeFirst_safe hv.1, hr, e5, beforeFirst_safe (t := "');\n".toList) (by decide), e4, List.cons_append, hv.2]
  simp only [jsUnits, Option.map_some, List.append_nil, ofUnits_text]

/-! ### C152 -/

/-- A text is the JSON text of at most one value. -/
theorem isJson_unique {t : Text} {v w : JVal} (hv : IsJson t v) (hw : IsJson t w) : v = w := by
  obtain ⟨N, hN⟩ := hv
  obtain ⟨M, hM⟩ := hw
  have := (hN (N + M) (by omega)).symm.trans (hM (N + M) (by omega))
  simpa using this

/-- **C152.** The text that `write_json` returns for a multiplex network with one aspect, whatever characters its names consist of, is the JSON text of
one value only: the names of the nodes and of the layers, once each, and the links of every layer, once each, with the positions of their nodes, their
weight and the position of the layer. -/
theorem C152_text (c : Coupling JName Int) (dir al : Bool) (z : Int) (ops : List (POp JName Int)) :
    ∃ t nodes layers links, writeJsonText (afterP [c] dir z al ops) = .ok t ∧ (∀ v, IsJson t v ↔ v = netVal nodes layers links) ∧ nodes.Nodup ∧
      (∀ x, x ∈ nodes ↔ Spec.Happened (Spec.NamesNodeP 1 al x) ops) ∧ layers.Nodup ∧ (∀ s, s ∈ layers ↔ Spec.HasLayer 1 al ops (.el s)) ∧
      (∀ e ∈ links, e.2.2.2 < layers.length) ∧
      ∀ k s, layers[k]? = some s → ∃ ps, Spec.EachOnce dir (Spec.readP 1 dir al ops [s]) ps ∧
        (links.filter fun e => e.2.2.2 = k).map (fun e => (nodes[e.1]?, nodes[e.2.1]?, e.2.2.1)) =
          ps.map fun p => (some p.1, some p.2, Spec.readP 1 dir al ops [s] p.1 p.2) := by
  obtain ⟨⟨nodes, ls, links⟩, h1, h2, h3, h4, h5, h6, h7⟩ := C99_json c dir al z ops
  simp only at h2 h3 h4 h5 h6 h7
  obtain ⟨layers, rfl⟩ : ∃ layers : List JName, ls = layers.map .el := by
    have : ∀ l : List (LKey JName), (∀ L ∈ l, ∃ s, L = .el s) → ∃ layers : List JName, l = layers.map .el := by
      intro l
      induction l with
      | nil => exact fun _ => ⟨[], rfl⟩
      | cons L l ih =>
        intro h
        obtain ⟨s, rfl⟩ := h L (by simp)
        obtain ⟨t, rfl⟩ := ih fun M hM => h M (by simp [hM])
        exact ⟨s :: t, rfl⟩
    exact this ls fun L hL => by obtain ⟨s, e, -⟩ := (h5 L).1 hL; exact ⟨s, e⟩
  have hp : IsJson (jsonText ⟨nodes, layers.map .el, links⟩) (netVal nodes layers links) := by
    rw [jsonText_eq]
    exact (parses_net (fun x _ => parses_name x) (fun x _ => parses_name x) links).isJson
  refine ⟨jsonText ⟨nodes, layers.map .el, links⟩, nodes, layers, links, by unfold writeJsonText; rw [h1],
    fun v => ⟨fun hv => isJson_unique hv hp, fun hv => hv ▸ hp⟩, h2, h3, List.Nodup.of_map _ h4, fun s => ?_, fun e he => by simpa using h6 e he,
    fun k s hk => h7 k s (by simp [hk])⟩
  have := h5 (.el s)
  rw [List.mem_map] at this
  constructor
  · intro hs
    obtain ⟨s', e, h⟩ := this.1 ⟨s, hs, rfl⟩
    cases e
    exact h
  · intro hs
    obtain ⟨s', h, e⟩ := this.2 ⟨s, rfl, hs⟩
    cases e
    exact h

/-! ### C151 -/

/-- **C151.** `webplot` of a multiplex network with one aspect whose nodes and layers have plain names: the script of the page passes to `JSON.parse`
a text of the same JSON value as the text that `write_json` returns for the network, and the call ends there; both for the text that is returned and
for the file that is written. Missing: other names, for some of which it is false. -/
theorem C151_page_partial (c : Coupling JName Int) (dir al : Bool) (z : Int) (ops : List (POp JName Int))
    (hn : ∀ x, Spec.Happened (Spec.NamesNodeP 1 al x) ops → Spec.PlainName x) (hl : ∀ s, Spec.HasLayer 1 al ops (.el s) → Spec.PlainName s) :
    ∃ s t v page file r1 r2, writeJsonText (afterP [c] dir z al ops) = .ok s ∧ IsJson s v ∧ webplot (afterP [c] dir z al ops) = .ok page ∧
      webplotFile (afterP [c] dir z al ops) = .ok file ∧ Spec.passed page = some (t, ");\n".toList ++ r1) ∧
      Spec.passed file = some (t, ");\n".toList ++ r2) ∧ IsJson t v := by
  obtain ⟨⟨nodes, ls, links⟩, h1, -, h2, -, h3, -⟩ := C99_json c dir al z ops
  simp only at h2 h3
  have hpar := after_params (cs := [c]) (by simp) dir z al ops
  obtain ⟨layers, rfl, hlay⟩ : ∃ layers : List JName, ls = layers.map .el ∧ ∀ s ∈ layers, Spec.PlainName s := by
    have : ∀ l : List (LKey JName), (∀ L ∈ l, ∃ s, L = .el s ∧ Spec.PlainName s) →
        ∃ layers : List JName, l = layers.map .el ∧ ∀ s ∈ layers, Spec.PlainName s := by
      intro l
      induction l with
      | nil => exact fun _ => ⟨[], rfl, by simp⟩
      | cons L l ih =>
        intro h
        obtain ⟨s, rfl, hs⟩ := h L (by simp)
        obtain ⟨t, rfl, ht⟩ := ih fun M hM => h M (by simp [hM])
        exact ⟨s :: t, rfl, by simpa using ⟨hs, ht⟩⟩
    exact this ls fun L hL => by obtain ⟨s, e, h⟩ := (h3 L).1 hL; exact ⟨s, e, hl s h⟩
  have hnod : ∀ x ∈ nodes, Spec.PlainName x := fun x hx => hn x ((h2 x).1 hx)
  have hs := safe_net hnod hlay links
  have hj : writeJsonText (afterP [c] dir z al ops) = .ok (textWith jsonName nodes layers links) := by
    unfold writeJsonText
    rw [h1]
    simp only [jsonText_eq]
  have hw : webplot (afterP [c] dir z al ops) = .ok (replaceFrom "@netjson".toList (textWith jsonName nodes layers links) 0 template) := by
    unfold webplot
    rw [if_neg (by rw [hpar.1]; simp), hj]
  have hf : webplotFile (afterP [c] dir z al ops) =
      .ok ("<html><body>".toList ++ replaceFrom "@netjson".toList (textWith jsonName nodes layers links) 0 template ++ "</body></html>".toList) := by
    unfold webplotFile
    rw [hw]
  obtain ⟨r1, e1⟩ := passed_page (pre := []) hs (by decide +kernel) []
  obtain ⟨r2, e2⟩ := passed_page (pre := "<html><body>".toList) hs (by decide +kernel) "</body></html>".toList
  rw [List.nil_append, List.append_nil] at e1
  exact ⟨_, _, netVal nodes layers links, _, _, r1, r2, hj, (parses_net (fun x _ => parses_name x) (fun x _ => parses_name x) links).isJson, hw, hf, e1,
    e2, (parses_net (fun x hx => parses_raw (hnod x hx)) (fun x hx => parses_raw (hlay x hx)) links).isJson⟩

/-- **C151**, networks with more aspects: `AssertionError`. -/
theorem C151_aspects {cs : List (Coupling JName Int)} (hcs : 2 ≤ cs.length) (dir al : Bool) (z : Int) (ops : List (POp JName Int)) :
    webplot (afterP cs dir z al ops) = .error .assertionError ∧ webplotFile (afterP cs dir z al ops) = .error .assertionError := by
  have hpar := after_params (cs := cs) (by rintro rfl; simp at hcs) dir z al ops
  have : webplot (afterP cs dir z al ops) = .error .assertionError := by
    unfold webplot
    rw [if_pos (by rw [hpar.1]; omega)]
  exact ⟨this, by unfold webplotFile; rw [this]⟩

/-- the network of the examples: two nodes, one of them named by a string, linked on a layer -/
def webNet (name : String) : MPlex JName Int :=
  afterP [.categorical 1] false 0 true [.setItem [.int 1, .str name.toList, .str "work".toList] 5]

example : (writeJsonText (webNet "Ann")).map String.ofList =
    .ok "{\"nodes\": [{\"name\": 1}, {\"name\": \"Ann\"}], \"layers\": [{\"name\": \"work\"}], \"links\": [{\"source\": 0, \"target\": 1, \"value\": 5, \"layer\": 0}]}" := by
  decide +kernel

example : Spec.PlainName (.str "Ann Lee".toList) ∧ Spec.PlainName (.str "work".toList) ∧ ¬ Spec.PlainName (.str "O'Hara".toList) := by
  refine ⟨?_, ?_, ?_⟩ <;> (unfold Spec.PlainName; decide)

/-- A history that meets the hypotheses of `C151_page_partial`. -/
example : let ops : List (POp JName Int) := [.setItem [.int 1, .str "Ann".toList, .str "work".toList] 5]
    (∀ x, Spec.Happened (Spec.NamesNodeP 1 true x) ops → Spec.PlainName x) ∧ ∀ s, Spec.HasLayer 1 true ops (.el s) → Spec.PlainName s := by
  intro ops
  obtain ⟨J, h1, -, h2, -, h3, -⟩ := C99_json (.categorical 1) false true 0 ops
  have hJ : J = ⟨[.int 1, .str "Ann".toList], [.el (.str "work".toList)], [(0, 1, 5, 0)]⟩ := by
    have : writeJson (afterP [.categorical 1] false 0 true ops) =
        .ok ⟨[.int 1, .str "Ann".toList], [.el (.str "work".toList)], [(0, 1, 5, 0)]⟩ := by decide +kernel
    rw [this] at h1
    exact (Except.ok.inj h1).symm
  subst hJ
  constructor
  · intro x hx
    have := (h2 x).2 hx
    simp only [List.mem_cons, List.not_mem_nil, or_false] at this
    rcases this with rfl | rfl
    · trivial
    · unfold Spec.PlainName; decide
  · intro s hs
    have := (h3 _).2 ⟨s, rfl, hs⟩
    simp only [List.mem_cons, List.not_mem_nil, or_false, LKey.el.injEq] at this
    subst this
    unfold Spec.PlainName; decide

example : template.length = 3255 := by decide +kernel

/-- False for names with an apostrophe: the string ends inside the name, and the script goes on with the rest of the name. -/
theorem C151_false_apostrophe : ((webplot (webNet "O'Hara")).toOption.bind Spec.passed).map (fun r => (r.1, r.2.take 6)) =
    some ("{\"nodes\": [{\"name\": 1}, {\"name\": \"O".toList, "Hara\"}".toList) := by decide +kernel

/-- False for names with a quotation mark: its backslash is lost, and the text passed on is not JSON (read with a depth of 100). -/
theorem C151_false_quotation : ((webplot (webNet "a\"b")).toOption.bind Spec.passed).map (fun r => (r.1.take 40, (jsonVal 100 r.1).isNone)) =
    some ("{\"nodes\": [{\"name\": 1}, {\"name\": \"a\"b\"}]".toList, true) ∧
    ((writeJsonText (webNet "a\"b")).toOption.bind (jsonVal 100)).isSome = true := by decide +kernel

/-- False for names that contain the end of a script: there is no complete string. -/
theorem C151_false_script : ((webplot (webNet "</script>")).toOption.bind Spec.passed) = none := by decide +kernel

end Pymnet
