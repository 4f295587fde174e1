import Verif.Model.Assigners
import Verif.Props.Visuals

/-! C130-C131: the properties that `draw` assigns to layers, nodes and edges. -/

set_option linter.unusedSectionVars false
set_option linter.unusedSimpArgs false

namespace Pymnet

open Py

section

variable {ι V : Type} [DecidableEq V] [Mul V]

/-- **C130.** A value in the property dictionary is used whatever the rule, and does not count for the rule "order". -/
theorem C130_dict (a : Assigner ι V) {x : ι} {v : V} (h : a.lookup x = some v) (i : Option Nat) : a.get x i = (.ok (some v), i) := by
  simp only [Assigner.get, h]

/-- **C130.** Without a value in the property dictionary and without a rule the default is used. -/
theorem C130_default (a : Assigner ι V) {x : ι} (h : a.lookup x = none) (hr : a.propRule = none) (i : Option Nat) :
    a.get x i = (.ok a.default, i) := by
  simp only [Assigner.get, h, hr]

/-- **C130.** Unknown rules, and rule dictionaries without a rule, raise an exception for objects that are not in the property dictionary. -/
theorem C130_unknown (a : Assigner ι V) {x : ι} (h : a.lookup x = none) {p : PropRule V} (hp : a.propRule = some p) (i : Option Nat) :
    (p.rule = none → (a.get x i).1 = .error .assertionError) ∧ (∀ r, p.rule = some r → r ∉ a.rules → (a.get x i).1 = .error .exception) := by
  constructor
  · intro hr; simp only [Assigner.get, h, hp, hr]
  · intro r hr hn; simp only [Assigner.get, h, hp, hr, if_neg hn]

/-- **C130.** A rule of the class, followed by the function "f" and a constant factor: the function comes first. -/
theorem C130_rule (a : Assigner ι V) {x : ι} (h : a.lookup x = none) {p : PropRule V} (hp : a.propRule = some p) {r : RuleName}
    (hr : p.rule = some r) (hmem : r ∈ a.rules) (hrf : r ≠ .f) {v : V} (hv : a.special x p r = some (.ok (some v))) (hm : p.mapping = false)
    (i : Option Nat) :
    (∀ g, p.f = some g → p.scaleby = none → a.get x i = (.ok (g (some v)), i)) ∧
    (∀ g c w, p.f = some g → p.scaleby = some (.const c) → g (some v) = some w → a.get x i = (.ok (some (w * c)), i)) ∧
    (∀ c, p.f = none → p.scaleby = some (.const c) → a.get x i = (.ok (some (v * c)), i)) ∧
    (p.f = none → p.scaleby = none → a.get x i = (.ok (some v), i)) := by
  refine ⟨fun g hg hs => ?_, fun g c w hg hs hw => ?_, fun c hg hs => ?_, fun hg hs => ?_⟩ <;>
  simp [Assigner.get, h, hp, hr, hmem, Assigner.getByRule, hv, Assigner.modify, modF, hg, hs, hrf, modMapping, hm, Assigner.modScale, timesV, *]

/-- **C130.** The rule "order" without modifiers: of the objects asked for that are not in the property dictionary, the `k`-th one (from 0) gets
the `k`-th value of the sequence, which is repeated; the others get the values of the dictionary. -/
theorem C130_order (a : Assigner ι V) {s : List V} (hs : s ≠ []) (hp : a.propRule = some { rule := some .order, sequence := some s })
    (hmem : .order ∈ a.rules) (hsp : ∀ x p, a.special x p .order = none) (l : List ι) (j : Nat) (x : ι) (hx : l[j]? = some x) :
    (∀ v, a.lookup x = some v → (a.getAll l none)[j]? = some (.ok (some v))) ∧
    (a.lookup x = none → ∀ k, k = ((l.take j).filter fun y => (a.lookup y).isNone).length →
      ∃ v, s[k % s.length]? = some v ∧ (a.getAll l none)[j]? = some (.ok (some v))) := by
  have hstep : ∀ y i, a.lookup y = none → ∃ v, s[nextI i % s.length]? = some v ∧ a.get y i = (.ok (some v), some (nextI i)) := by
    intro y i hy
    have hlt : nextI i % s.length < s.length := Nat.mod_lt _ (List.length_pos_iff.2 hs)
    refine ⟨s[nextI i % s.length], List.getElem?_eq_getElem hlt, ?_⟩
    simp only [Assigner.get, hy, hp, hmem, if_true, Assigner.getByRule, hsp, orderValue, List.getElem?_eq_getElem hlt, Option.isSome_some,
      Assigner.modify, modF, modMapping, Bool.false_eq_true, if_false, Assigner.modScale]
  suffices key : ∀ (l : List ι) (j : Nat) (i : Option Nat), l[j]? = some x →
      (∀ v, a.lookup x = some v → (a.getAll l i)[j]? = some (.ok (some v))) ∧
      (a.lookup x = none → ∃ v, s[(nextI i + ((l.take j).filter fun y => (a.lookup y).isNone).length) % s.length]? = some v ∧
        (a.getAll l i)[j]? = some (.ok (some v))) by
    refine ⟨(key l j none hx).1, fun hn k hk => ?_⟩
    have := (key l j none hx).2 hn
    rwa [← hk, nextI, Nat.zero_add] at this
  intro l
  induction l with
  | nil => intro j i h; simp at h
  | cons y l ih =>
    intro j i h
    cases j with
    | zero =>
      simp only [List.getElem?_cons_zero, Option.some.injEq] at h
      subst h
      constructor
      · intro v hv; simp [Assigner.getAll, C130_dict a hv]
      · intro hn
        obtain ⟨v, h1, h2⟩ := hstep y i hn
        exact ⟨v, by simpa using h1, by simp [Assigner.getAll, h2]⟩
    | succ j =>
      simp only [List.getElem?_cons_succ] at h
      simp only [Assigner.getAll, List.getElem?_cons_succ, List.take_succ_cons]
      cases hy : a.lookup y with
      | some v =>
        rw [C130_dict a hy]
        simpa [hy] using ih j i h
      | none =>
        obtain ⟨v, h1, h2⟩ := hstep y i hy
        rw [h2]
        have := ih j (some (nextI i)) h
        refine ⟨this.1, fun hn => ?_⟩
        obtain ⟨w, w1, w2⟩ := this.2 hn
        refine ⟨w, ?_, w2⟩
        rw [← w1]
        simp only [hy, Option.isNone_none, List.filter_cons_of_pos, List.length_cons, nextI]
        congr 2; omega

end

section

variable {α V : Type} [DecidableEq α] [DecidableEq V]

/-- **C130** is false: the parameters are not gone through until a value is found. The rule "edgetype" with a value for links within layers
only gives `None` to all others, not the default. -/
theorem C130_false_default [Mul V] (directed : Bool) (intra : V) (default : Option V) (weight : List α → List α → Except Err V)
    (layerName : α → V) (interlayer : V) (name : List α × List α → V) {a b : List α} (hl : a[1]? ≠ b[1]?) (i : Option Nat) :
    (edgeAssigner directed [] (some { rule := some .edgetype, intra := some intra }) default weight layerName interlayer name).get (a, b) i =
      (.ok none, i) := by
  cases directed <;>
  simp [edgeAssigner, Assigner.get, lookupEdge, lookupPlain, Dict.get, Assigner.getByRule, edgeSpecial, hl, Assigner.modify, modF, modMapping,
    Assigner.modScale]

/-- **C131.** In an undirected network a link may be given in either direction in a property dictionary. -/
theorem C131_dict [Mul V] (d : Dict (List α × List α) (Option V)) (p : Option (PropRule V)) (default : Option V)
    (weight : List α → List α → Except Err V) (layerName : α → V) (interlayer : V) (name : List α × List α → V) {a b : List α} {v : V}
    (h : Dict.get d (a, b) = some (some v)) (h' : (b, a) ∈ Dict.keys d → a = b) (i : Option Nat) :
    (edgeAssigner false d p default weight layerName interlayer name).get (a, b) i = (.ok (some v), i) ∧
    (edgeAssigner false d p default weight layerName interlayer name).get (b, a) i = (.ok (some v), i) := by
  constructor
  · exact C130_dict _ (by simp [edgeAssigner, lookupEdge, h]) i
  · refine C130_dict _ ?_ i
    by_cases hab : a = b
    · subst hab; simp [edgeAssigner, lookupEdge, h]
    · have : Dict.get d (b, a) = none := Dict.get_eq_none.2 fun hm => hab (h' hm)
      simp [edgeAssigner, lookupEdge, lookupPlain, h, this]

/-- **C131 (partial).** In an undirected network, where a link is drawn from both ends, both get the same property if the property dictionary
does not give the link in both directions and the rule is "edgetype", "edgeweight" or "layer". Missing: the rule "order", for which it is
false (`C131_false`). -/
theorem C131_same_partial [Mul V] (d : Dict (List α × List α) (Option V)) {p : PropRule V} (default : Option V)
    (weight : List α → List α → Except Err V) (layerName : α → V) (interlayer : V) (name : List α × List α → V) {a b : List α}
    (hr : p.rule = some .edgetype ∨ p.rule = some .edgeweight ∨ p.rule = some .layer) (hs : ∀ r, p.scaleby ≠ some (.rule r)) (hw : weight a b = weight b a)
    (hd : (a, b) ∉ Dict.keys d ∨ (b, a) ∉ Dict.keys d) (i : Option Nat) :
    (edgeAssigner false d (some p) default weight layerName interlayer name).get (a, b) i =
      (edgeAssigner false d (some p) default weight layerName interlayer name).get (b, a) i := by
  have hl : lookupEdge false d (a, b) = lookupEdge false d (b, a) := by
    simp only [lookupEdge, lookupPlain, Bool.false_eq_true, if_false]
    rcases hd with hd | hd
    · rw [Dict.get_eq_none.2 hd]
    · rw [Dict.get_eq_none.2 hd]
  have hsp : ∀ r, r = .edgetype ∨ r = .edgeweight ∨ r = .layer → edgeSpecial weight layerName interlayer (a, b) p r = edgeSpecial weight layerName interlayer (b, a) p r := by
    rintro r (rfl | rfl | rfl)
    · simp only [edgeSpecial, eq_comm (a := a[1]?), ne_eq]
    · simp only [edgeSpecial, hw]
    · simp only [edgeSpecial]
      by_cases h : a[1]? = b[1]?
      · rw [if_pos h, if_pos h.symm, h]
      · rw [if_neg h, if_neg fun h' => h h'.symm]
  have hmod : ∀ v i, (edgeAssigner false d (some p) default weight layerName interlayer name).modify p (a, b) v i =
      (edgeAssigner false d (some p) default weight layerName interlayer name).modify p (b, a) v i := by
    intro v i
    simp only [Assigner.modify]
    cases modMapping p (modF p v) with
    | error e => rfl
    | ok v =>
      simp only [Assigner.modScale]
      cases hsc : p.scaleby with
      | none => rfl
      | some sc =>
        cases sc with
        | const c => rfl
        | rule r => exact absurd hsc (hs r)
  simp only [Assigner.get]
  rw [show (edgeAssigner false d (some p) default weight layerName interlayer name).lookup (a, b) =
    (edgeAssigner false d (some p) default weight layerName interlayer name).lookup (b, a) from hl]
  cases (edgeAssigner false d (some p) default weight layerName interlayer name).lookup (b, a) with
  | some v => rfl
  | none =>
    have e : (edgeAssigner false d (some p) default weight layerName interlayer name).propRule = some p := rfl
    simp only [e]
    rcases hr with hr | hr | hr
    · simp only [hr, Assigner.getByRule]
      rw [show (edgeAssigner false d (some p) default weight layerName interlayer name).special (a, b) p .edgetype =
        (edgeAssigner false d (some p) default weight layerName interlayer name).special (b, a) p .edgetype from hsp _ (Or.inl rfl)]
      simp only [hmod]
    · simp only [hr, Assigner.getByRule]
      rw [show (edgeAssigner false d (some p) default weight layerName interlayer name).special (a, b) p .edgeweight =
        (edgeAssigner false d (some p) default weight layerName interlayer name).special (b, a) p .edgeweight from hsp _ (Or.inr (Or.inl rfl))]
      simp only [hmod]
    · simp only [hr, Assigner.getByRule]
      rw [show (edgeAssigner false d (some p) default weight layerName interlayer name).special (a, b) p .layer =
        (edgeAssigner false d (some p) default weight layerName interlayer name).special (b, a) p .layer from hsp _ (Or.inr (Or.inr rfl))]
      simp only [hmod]

end

/-- the edges of the figure of a network with one link -/
def oneLinkEdges : Except Err (List (List Nat × List Nat)) :=
  ((after 1 (0 : Int) false false [.setItem [1, 2, 10, 10] 1]).figure (K := ℚ) (fun _ => (0 : Nat)) [] [] (fun _ => (0, 0)) (fun _ => 0)).map fun f => f.edges

/-- **C131** is false for the rule "order": in the figure of a network with one link, the link has two different values (of a sequence of two
values), one from each end. -/
theorem C131_false : ∃ es : List (List Nat × List Nat), oneLinkEdges = .ok es ∧ es = [([1, 10], [2, 10]), ([2, 10], [1, 10])] ∧
    (edgeAssigner (V := Int) false [] (some { rule := some .order, sequence := some [7, 8] }) (some 0) (fun _ _ => .ok 1) (fun _ => 0) 0 (fun _ => 0)).getAll
      es none = [.ok (some 7), .ok (some 8)] := ⟨_, rfl, rfl, rfl⟩

example : ∃ a : Assigner Nat Int, a.propRule = some { rule := some .order, sequence := some [5, 6, 7] } ∧
    a.getAll [1, 2, 3, 4, 5] none = [.ok (some 5), .ok (some 90), .ok (some 6), .ok (some 7), .ok (some 5)] :=
  ⟨⟨[.order], lookupPlain [(2, some 90)], some { rule := some .order, sequence := some [5, 6, 7] }, none, fun _ => 0, fun _ _ _ => none⟩, rfl, rfl⟩
example : (edgeAssigner (V := Int) false [(([1, 10], [2, 10]), some 3)] none (some 0) (fun _ _ => .ok 1) (fun _ => 0) 0 (fun _ => 0)).get
    (([2, 10], [1, 10]) : List Nat × List Nat) none = (.ok (some 3), none) := rfl

end Pymnet
