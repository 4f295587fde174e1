import Verif.Model.PlexInit
import Verif.Props.Plex2
import Verif.Props.Transforms
import Verif.Proofs.Clustering

/-!
Properties C134 (the coupling argument of a multiplex network), C135 (networks as couplings) and C136 (strengths in
uncoupled networks).
-/

set_option linter.unusedSectionVars false
set_option linter.unusedSimpArgs false

namespace Pymnet

open Py MPlex

variable {α W : Type} [DecidableEq α] [DecidableEq W]

/-! ### C134 -/

namespace Spec

/-- What a coupling given to `MultiplexNetwork` means: the kind of coupling and its weight, 1 if none is given. -/
inductive Means (one : W) : CoupArg α W → Coupling α W → Prop
  | categoricalStr : Means one (.str "categorical") (.categorical one)
  | ordinalStr : Means one (.str "ordinal") (.ordinal one)
  | noneStr : Means one (.str "none") (.uncoupled (some one))
  | noneObject : Means one .none (.uncoupled none)
  | categoricalDefault : Means one (.tuple (.str "categorical") []) (.categorical one)
  | ordinalDefault : Means one (.tuple (.str "ordinal") []) (.ordinal one)
  | noneTuple : Means one (.tuple (.str "none") []) (.uncoupled none)
  | categorical (w : W) (rest : List W) : Means one (.tuple (.str "categorical") (w :: rest)) (.categorical w)
  | ordinal (w : W) (rest : List W) : Means one (.tuple (.str "ordinal") (w :: rest)) (.ordinal w)
  | noneWeight (w : W) (rest : List W) : Means one (.tuple (.str "none") (w :: rest)) (.uncoupled (some w))
  | net (c : MNet α W) (h : c.aspects = 0) : Means one (.net c) (.net c)

/-- The couplings given, one for each aspect. -/
def givenCouplings : CoupsArg α W → List (CoupArg α W)
  | .one c => [c]
  | .list cs => cs

/-- The exception for a coupling that is none of those allowed. -/
inductive Refused : CoupArg α W → Err → Prop
  | emptyTuple : Refused .emptyTuple .assertionError
  | otherTuple (rest : List W) : Refused (.tuple .other rest) .assertionError
  | unknownTuple (s : String) (rest : List W) (h : s ≠ "categorical" ∧ s ≠ "ordinal" ∧ s ≠ "none") :
      Refused (.tuple (.str s) rest) .assertionError
  | unknownStr (s : String) (h : s ≠ "categorical" ∧ s ≠ "ordinal" ∧ s ≠ "none") : Refused (.str s) .assertionError
  | net (c : MNet α W) (h : c.aspects ≠ 0) : Refused (.net c) .assertionError
  | other : Refused .other .valueError

end Spec

theorem normCoupling_spec (one : W) (a : CoupArg α W) :
    (∃ k, normCoupling one a = .ok k ∧ Spec.Means one a k) ∨ ∃ e, normCoupling one a = .error e ∧ Spec.Refused a e := by
  cases a with
  | tuple head rest =>
    cases head with
    | other => exact .inr ⟨_, rfl, .otherTuple rest⟩
    | str s =>
      simp only [normCoupling, namedCoupling]
      by_cases h1 : s = "categorical"
      · subst h1
        left
        cases rest with
        | nil => exact ⟨_, if_pos rfl, .categoricalDefault⟩
        | cons w rest => exact ⟨_, if_pos rfl, .categorical w rest⟩
      · by_cases h2 : s = "ordinal"
        · subst h2
          left
          rw [if_neg h1, if_pos rfl]
          cases rest with
          | nil => exact ⟨_, rfl, .ordinalDefault⟩
          | cons w rest => exact ⟨_, rfl, .ordinal w rest⟩
        · by_cases h3 : s = "none"
          · subst h3
            left
            rw [if_neg h1, if_neg h2, if_pos rfl]
            cases rest with
            | nil => exact ⟨_, rfl, .noneTuple⟩
            | cons w rest => exact ⟨_, rfl, .noneWeight w rest⟩
          · right
            rw [if_neg h1, if_neg h2, if_neg h3]
            exact ⟨_, rfl, .unknownTuple s rest ⟨h1, h2, h3⟩⟩
  | emptyTuple => exact .inr ⟨_, rfl, .emptyTuple⟩
  | net c =>
    unfold normCoupling
    by_cases h : c.aspects = 0
    · exact .inl ⟨_, if_pos h, .net c h⟩
    · exact .inr ⟨_, if_neg h, .net c h⟩
  | str s =>
    simp only [normCoupling, namedCoupling]
    by_cases h1 : s = "categorical"
    · subst h1; exact .inl ⟨_, if_pos rfl, .categoricalStr⟩
    · by_cases h2 : s = "ordinal"
      · subst h2; rw [if_neg h1, if_pos rfl]; exact .inl ⟨_, rfl, .ordinalStr⟩
      · by_cases h3 : s = "none"
        · subst h3; rw [if_neg h1, if_neg h2, if_pos rfl]; exact .inl ⟨_, rfl, .noneStr⟩
        · rw [if_neg h1, if_neg h2, if_neg h3]; exact .inr ⟨_, rfl, .unknownStr s ⟨h1, h2, h3⟩⟩
  | none => exact .inl ⟨_, rfl, .noneObject⟩
  | other => exact .inr ⟨_, rfl, .other⟩

theorem normCouplings_spec (one : W) (as : List (CoupArg α W)) :
    (∃ ks, normCouplings one as = .ok ks ∧ List.Forall₂ (Spec.Means one) as ks) ∨
    ∃ e pre a post, as = pre ++ a :: post ∧ (∀ b ∈ pre, ∃ k, Spec.Means one b k) ∧ Spec.Refused a e ∧
      normCouplings one as = .error e := by
  induction as with
  | nil => exact .inl ⟨[], rfl, .nil⟩
  | cons a as ih =>
    rcases normCoupling_spec one a with ⟨k, hk, hm⟩ | ⟨e, he, hr⟩
    · rcases ih with ⟨ks, e1, e2⟩ | ⟨e, pre, b, post, rfl, h1, h2, h3⟩
      · exact .inl ⟨k :: ks, by unfold normCouplings; rw [hk, ok_bind, e1]; rfl, .cons hm e2⟩
      · refine .inr ⟨e, a :: pre, b, post, rfl, ?_, h2, by unfold normCouplings; rw [hk, ok_bind, h3]; rfl⟩
        intro c hc
        rcases List.mem_cons.1 hc with rfl | hc
        · exact ⟨k, hm⟩
        · exact h1 c hc
    · exact .inr ⟨e, [], a, as, rfl, by simp, hr, by unfold normCouplings; rw [he]; rfl⟩

/-- **C134.** `MultiplexNetwork(couplings,...)` returns a network with one aspect for each coupling given, coupled in this
aspect as the coupling says, or raises the exception of the first coupling that is not allowed. -/
theorem C134_couplings (one : W) (arg : CoupsArg α W) (directed : Bool) (noEdge : W) (aligned : Bool) :
    (∃ ks, List.Forall₂ (Spec.Means one) (Spec.givenCouplings arg) ks ∧
      newPlex one arg directed noEdge aligned = .ok (MPlex.init ks directed noEdge aligned) ∧
      (MPlex.init ks directed noEdge aligned).aspects = (Spec.givenCouplings arg).length) ∨
    ∃ e pre a post, Spec.givenCouplings arg = pre ++ a :: post ∧ (∀ b ∈ pre, ∃ k, Spec.Means one b k) ∧
      Spec.Refused a e ∧ newPlex one arg directed noEdge aligned = .error e := by
  have hg : newPlex one arg directed noEdge aligned = (normCouplings one (Spec.givenCouplings arg)).bind
      fun ks => .ok (MPlex.init ks directed noEdge aligned) := by
    cases arg <;> rfl
  rw [hg]
  rcases normCouplings_spec one (Spec.givenCouplings arg) with ⟨ks, h1, h2⟩ | ⟨e, pre, a, post, h1, h2, h3, h4⟩
  · left
    refine ⟨ks, h2, by rw [h1]; rfl, ?_⟩
    exact h2.length_eq.symm
  · right
    exact ⟨e, pre, a, post, h1, h2, h3, by rw [h4]; rfl⟩

/-- **C134, refused couplings.** No coupling is both allowed and refused. -/
theorem C134_exclusive (one : W) {a : CoupArg α W} {k : Coupling α W} {e : Err} (h1 : Spec.Means one a k) :
    ¬ Spec.Refused a e := by
  intro h2
  cases h1 <;> cases h2 <;> simp_all

/-- **C134, default weight.** A network constructed with the string `'categorical'` reads 1 between any two layers of a node. -/
theorem C134_default_weight [Zero W] [LawfulIntNames α] (one : W) (h1 : one ≠ 0) (directed aligned : Bool)
    (ops : List (POp α W)) {i x y : α} (hxy : x ≠ y) (hu : Spec.HasNodeLayer 1 aligned ops [i, x])
    (hv : Spec.HasNodeLayer 1 aligned ops [i, y]) :
    ∃ p, newPlex one (.one (.str "categorical")) directed 0 aligned = .ok p ∧
      (p.run ops).view.readItem [i, i, x, y] = .ok (.weight one) := by
  refine ⟨MPlex.init [.categorical one] directed 0 aligned, rfl, ?_⟩
  have hU : Spec.Usable [Coupling.categorical one] aligned ops :=
    usable_categorical (by simp) (by intro c hc; exact ⟨one, h1, by simpa using hc⟩)
  have ha : Spec.Addresses 1 [i, i, x, y] [i, x] [i, y] := ⟨rfl, rfl, Or.inl rfl⟩
  refine (main_read (directed := directed) hU (u := [i, x]) (v := [i, y]) hu hv ha).1 one ?_
  exact Or.inr ⟨i, [x], [y], rfl, rfl, 0, x, y, rfl, hxy, rfl, Or.inl rfl⟩

example : ∃ p, newPlex (α := Int) (1 : Int) (.one (.str "categorical")) false 0 true = .ok p ∧
    (p.run samplePlex).view.readItem [2, 2, 10, 11] = .ok (.weight 1) :=
  ⟨_, rfl, by decide⟩
example : newPlex (α := Int) (1 : Int) (.list [.tuple (.str "ordinal") [], .none, .tuple (.str "categorical") [5]]) false 0 true =
    .ok (MPlex.init [.ordinal 1, .uncoupled none, .categorical 5] false 0 true) ∧
    newPlex (α := Int) (1 : Int) (.list [.none, .str "nominal", .other]) false 0 true = .error .assertionError ∧
    newPlex (α := Int) (1 : Int) (.one .other) false 0 true = .error .valueError := ⟨rfl, rfl, rfl⟩

/-! ### C135 -/

/-- **C135, partial (reading).** If the coupling of an aspect is a monoplex network, the link between a node on two layers
that differ in this aspect reads what the coupling network reads between the two elementary layers. -/
theorem C135_read_partial [Zero W] [LawfulIntNames α] {cs : List (Coupling α W)} (hcs : cs ≠ []) (directed : Bool) (noEdge : W)
    (aligned : Bool) (ops : List (POp α W)) {i : α} {s : List α} {d : Nat} {x y : α} {c : MNet α W} {zc : W} {dc alc : Bool}
    {S : Nat → α → Prop} {NL : List α → Prop} {R : List α → List α → W} (h : Spec.Looks c 0 zc dc alc S NL R)
    (hc : cs[d]? = some (.net c)) (hx : s[d]? = some x) (hxy : x ≠ y)
    (hu : Spec.HasNodeLayer cs.length aligned ops (i :: s))
    (hv : Spec.HasNodeLayer cs.length aligned ops (i :: s.set d y)) {item : List α}
    (ha : Spec.Addresses cs.length item (i :: s) (i :: s.set d y)) :
    (afterP cs directed noEdge aligned ops).view.readItem item = .ok (.weight (R [x] [y])) := by
  have hp := after_pinv hcs directed noEdge aligned ops
  have hpar := after_params hcs directed noEdge aligned ops
  have ha' : Spec.Addresses (afterP cs directed noEdge aligned ops).view.aspects item (i :: s) (i :: s.set d y) := by
    change Spec.Addresses (afterP cs directed noEdge aligned ops).aspects _ _ _
    rw [hpar.1]; exact ha
  rw [View.readItem_addresses ha']
  change ((afterP cs directed noEdge aligned ops).getLink _).map _ = _
  obtain ⟨pu, n, s', e, -, ku⟩ := reg_cases hcs directed noEdge aligned ops hu
  cases e
  obtain ⟨pv, n, s', e, -, kv⟩ := reg_cases hcs directed noEdge aligned ops hv
  cases e
  have hc' : (afterP cs directed noEdge aligned ops).couplings[d]? = some (.net c) := by
    rw [hpar.2.2.2.2]; exact hc
  have hr : (afterP cs directed noEdge aligned ops).couplingRead (.net c) x y = .ok (R [x] [y]) := by
    rw [← h.reads_eq rfl rfl]
    exact MNet.getLink_interleave c (u := [x]) (v := [y]) rfl (by simp)
  by_cases hf : (afterP cs directed noEdge aligned ops).fic = true
  · rw [getLink_aligned hf hx hxy ?_ hc', hr]
    · rfl
    · rw [head_inSlice (by rw [hp.core.slen]; omega)]
      exact ((mem_product_iff hp.core _).1 pu).2 0 i rfl
  · rw [getLink_nonaligned_pos hp.core (by simpa using hf) hx hxy hc' (ku.resolve_left hf) (kv.resolve_left hf), hr]
    rfl

/-- the degree of a node of a monoplex network -/
theorem Spec.Looks.degOut_card {c : MNet α W} {zc : W} {dc alc : Bool} {S : Nat → α → Prop} {NL : List α → Prop}
    {R : List α → List α → W} (h : Spec.Looks c 0 zc dc alc S NL R) (x : α) :
    c.degOut [x] none = ({y | R [x] [y] ≠ zc}.ncard : Int) := by
  have hn := MNet.iterOut_nodup h.inv.l [x] none
  have hmem : ∀ b, b ∈ c.iterOut [x] none ↔ ∃ y, b = [y] ∧ R [x] [y] ≠ zc := by
    intro b
    rw [MNet.mem_iterOut]
    simp only [dimsOk, and_true]
    rw [← MNet.reads_ne_noEdge h.inv.l, h.noEdge_eq]
    constructor
    · intro hb
      have h' := (MNet.reads_ne_noEdge h.inv.l [x] b).1 (by rw [h.noEdge_eq]; exact hb)
      have hlen := (MNet.lk_length h.inv h').2
      rw [h.aspects_eq] at hlen
      match b, hlen with
      | [y], _ => exact ⟨y, rfl, by rwa [h.reads_eq rfl rfl] at hb⟩
    · rintro ⟨y, rfl, hy⟩
      rwa [h.reads_eq rfl rfl]
  rw [MNet.degOut, MNet.degDict_eq]
  change ((c.iterOut [x] none).length : Int) = _
  have hnd : ((c.iterOut [x] none).map fun b => b.headD x).Nodup := by
    refine hn.map_on ?_
    intro b hb b' hb' e
    obtain ⟨j, rfl, -⟩ := (hmem b).1 hb
    obtain ⟨j', rfl, -⟩ := (hmem b').1 hb'
    simpa using e
  rw [MNet.ncard_of_list hnd, List.length_map]
  intro j
  simp only [List.mem_map]
  constructor
  · rintro ⟨b, hb, e⟩
    obtain ⟨j', rfl, h⟩ := (hmem b).1 hb
    simp at e; subst e; exact h
  · intro h
    exact ⟨[j], (hmem _).2 ⟨j, rfl, h⟩, rfl⟩

/-- **C135, partial (degree).** In a network with one aspect coupled by a network, the out-degree of a node-layer is the
number of links inside the layer plus the number of links of the layer in the coupling network. -/
theorem C135_degree_partial [Zero W] [IntNames α] {c : MNet α W} {zc : W} {dc alc : Bool} {S : Nat → α → Prop}
    {NL : List α → Prop} {R : List α → List α → W} (h : Spec.Looks c 0 zc dc alc S NL R) (directed : Bool) (noEdge : W)
    (aligned : Bool) (ops : List (POp α W)) {i x : α} (hs : Spec.HasLayer 1 aligned ops (.el x)) :
    (afterP [.net c] directed noEdge aligned ops).view.degOut [i, x] none =
      .ok (({j | Spec.readP 1 directed aligned ops [x] i j ≠ 0}.ncard : Int) + ({y | R [x] [y] ≠ zc}.ncard : Int)) := by
  have hcs : [Coupling.net c] ≠ [] := by simp
  have hpar := after_params hcs directed noEdge aligned ops
  obtain ⟨k, hk, hdeg, -⟩ := child_degOut hcs directed noEdge aligned ops (i := i) (s := [x]) hs
  have := sum_spec (β := Int) (p := afterP [.net c] directed noEdge aligned ops) (u := [i, x]) rfl hk
    (fun c n => .ok (c.degOut n none)) (k := k.degOut [i] none) rfl
    (fun d => (afterP [.net c] directed noEdge aligned ops).dimDegree [i, x] d .out)
    (fun _ => ({y | R [x] [y] ≠ zc}.ncard : Int)) (by
      intro a h1 h2
      rw [hpar.1] at h2
      have ha : a = 1 := by simp at h2; omega
      subst ha
      unfold dimDegree
      rw [hpar.2.2.2.2]
      simp [h.degOut_card x])
  rw [hpar.1, hdeg] at this
  refine Eq.trans this ?_
  simp

theorem collect_second_error {γ : Type} {f : Nat → Except Err (List γ)} {e : Err} {l : List γ} (h0 : f 0 = .ok l)
    (h1 : f 1 = .error e) : View.collect f (List.range 2) = .error e := by
  simp [List.range_succ_eq_map, View.collect, h0, h1]

theorem sumDims_second_error {β : Type} [Add β] {f : Nat → Except Err β} {e : Err} {k : β} (h0 : f 0 = .ok k)
    (h1 : f 1 = .error e) (z : β) : sumDims f (List.range 2) z = .error e := by
  simp [List.range_succ_eq_map, sumDims, h0, h1]

/-- **C135 is false of the code**: in every network with one aspect that is coupled by a network, iterating the neighbours
of a node-layer raises `TypeError`, whatever the coupling network. -/
theorem C135_false_iter [Zero W] [IntNames α] (c : MNet α W) (directed : Bool) (noEdge : W) (aligned : Bool)
    (ops : List (POp α W)) {i x : α} (hs : Spec.HasLayer 1 aligned ops (.el x)) :
    (afterP [.net c] directed noEdge aligned ops).view.iterOut [i, x] none = .error .typeError ∧
    (afterP [.net c] directed noEdge aligned ops).view.iterTotal [i, x] none = .error .typeError := by
  have hcs : [Coupling.net c] ≠ [] := by simp
  have hpar := after_params hcs directed noEdge aligned ops
  obtain ⟨k, hk, -⟩ := child_degOut hcs directed noEdge aligned ops (i := i) (s := [x]) hs
  have hd : (afterP [.net c] directed noEdge aligned ops).iterDim [i, x] 1 = .error .typeError := by
    unfold iterDim
    rw [hpar.2.2.2.2]
    rfl
  have hintra : ∀ f, ∃ l, (afterP [.net c] directed noEdge aligned ops).intra [i, x] f = .ok l := by
    intro f
    have hk' : (afterP [.net c] directed noEdge aligned ops).child? (.ofList [x]) = some k := hk
    refine ⟨(f k [i]).map fun m => m.take 1 ++ [x], ?_⟩
    unfold intra onChild
    simp only [hk', List.drop_succ_cons, List.drop_zero]
  have out : (afterP [.net c] directed noEdge aligned ops).iterOut [i, x] none = .error .typeError := by
    unfold MPlex.iterOut selectDimensions
    rw [hpar.1]
    obtain ⟨l, hl⟩ := hintra (fun c n => c.iterOut n none)
    exact collect_second_error (l := l) (by simp only [if_true]; exact hl) (by simpa using hd)
  refine ⟨out, ?_⟩
  change (if (afterP [.net c] directed noEdge aligned ops).directed then
    (afterP [.net c] directed noEdge aligned ops).iterTotalDir [i, x] none
    else (afterP [.net c] directed noEdge aligned ops).iterOut [i, x] none) = _
  by_cases hdir : (afterP [.net c] directed noEdge aligned ops).directed
  · rw [if_pos hdir]
    unfold MPlex.iterTotalDir selectDimensions
    rw [hpar.1]
    obtain ⟨l, hl⟩ := hintra (fun c n => c.iterTotal n none)
    exact collect_second_error (l := l) (by simp only [if_true]; exact hl) (by simpa using hd)
  · rw [if_neg hdir, out]

/-- **C135 is false of the code**: in every such network the strength of a node-layer raises `IndexError`. -/
theorem C135_false_strength [AddCommGroup W] [IntNames α] (c : MNet α W) (directed : Bool) (noEdge : W) (aligned : Bool)
    (ops : List (POp α W)) {i x : α} (hs : Spec.HasLayer 1 aligned ops (.el x)) :
    (afterP [.net c] directed noEdge aligned ops).strOut [i, x] none = .error .indexError := by
  have hcs : [Coupling.net c] ≠ [] := by simp
  have hpar := after_params hcs directed noEdge aligned ops
  have hp := after_pinv hcs directed noEdge aligned ops
  obtain ⟨k, hk, -⟩ := child_degOut hcs directed noEdge aligned ops (i := i) (s := [x]) hs
  unfold strOut selectDimensions
  rw [hpar.1]
  refine sumDims_second_error (k := (((k.iterOut [i] none).map fun b => k.reads [i] b).sum)) ?_ ?_ 0
  · simp only [if_true]
    unfold onChild
    simp only [hk]
    exact MNet.strOut_spec (hp.core.kids _ _ hk).inv _ _
  · simp only [one_ne_zero, if_false]
    unfold dimStrength
    rw [hpar.2.2.2.2]
    rfl

/-- the coupling network of the examples: layers 10 and 11 linked with weight 3 -/
private def layerNet : MNet Int Int := after 0 0 false true [.setItem [10, 11] 3]

example : (afterP [.net layerNet] false 0 true samplePlex).view.readItem [2, 2, 10, 11] = .ok (.weight 3) ∧
    (afterP [.net layerNet] false 0 true samplePlex).view.degOut [2, 10] none = .ok 2 ∧
    (afterP [.net layerNet] false 0 true samplePlex).view.iterOut [2, 10] none = .error .typeError ∧
    (afterP [.net layerNet] false 0 true samplePlex).strOut [2, 10] none = .error .indexError := by decide

/-! ### C136 -/

/-- **C136, partial.** In an uncoupled network whose couplings were given as the string `'none'` or with a weight, the
out-strength of a node-layer is the sum of the weights of its links inside the layer. Missing: `None`, the default value
of the argument (see `C136_false`). -/
theorem C136_strength_partial [AddCommGroup W] [IntNames α] {cs : List (Coupling α W)} (hcs : cs ≠ [])
    (hun : ∀ c ∈ cs, ∃ w, c = .uncoupled (some w)) (directed : Bool) (noEdge : W) (aligned : Bool)
    (ops : List (POp α W)) {i : α} {s : List α} (hs : Spec.HasLayer cs.length aligned ops (.ofList s)) :
    (afterP cs directed noEdge aligned ops).strOut (i :: s) none =
      .ok (∑ᶠ j ∈ {j | Spec.readP cs.length directed aligned ops s i j ≠ 0}, Spec.readP cs.length directed aligned ops s i j) := by
  have hpar := after_params hcs directed noEdge aligned ops
  have hp := after_pinv hcs directed noEdge aligned ops
  obtain ⟨-, -, -, -, s4⟩ := after_spec hcs directed noEdge aligned ops
  obtain ⟨k, hk, -, hn, hmem⟩ := child_degOut hcs directed noEdge aligned ops (i := i) hs
  have hl : s.length = cs.length := by
    obtain ⟨s', e, h, -⟩ := hs
    cases ofList_inj' e; exact h
  have := sum_spec (β := W) (p := afterP cs directed noEdge aligned ops) (u := i :: s) rfl hk
    (fun c n => c.strOut n none) (k := ((k.iterOut [i] none).map fun b => k.reads [i] b).sum)
    (MNet.strOut_spec (hp.core.kids _ _ hk).inv _ _)
    (fun d => (afterP cs directed noEdge aligned ops).dimStrength (i :: s) d .out) (fun _ => 0) (by
      intro a h1 h2
      rw [hpar.1] at h2
      obtain ⟨c, hc⟩ : ∃ c, cs[a - 1]? = some c := ⟨_, List.getElem?_eq_getElem (by omega)⟩
      obtain ⟨w, rfl⟩ := hun c (List.mem_of_getElem? hc)
      unfold dimStrength dimDegree
      simp only [hpar.2.2.2.2, hc, zero_smul])
  unfold strOut
  rw [this]
  simp only [List.map_const', List.sum_replicate, smul_zero, add_zero]
  have hnd : ((k.iterOut [i] none).map fun b => b.headD i).Nodup := by
    refine hn.map_on ?_
    intro b hb b' hb' e
    obtain ⟨j, rfl, -⟩ := (hmem b).1 hb
    obtain ⟨j', rfl, -⟩ := (hmem b').1 hb'
    simpa using e
  rw [MNet.finsum_of_list hnd, List.map_map]
  · congr 2
    refine List.map_congr_left fun b hb => ?_
    obtain ⟨j, rfl, -⟩ := (hmem b).1 hb
    rw [lkA_reads hp.core hk, s4 s i j hl]
    rfl
  · intro j
    simp only [List.mem_map]
    constructor
    · rintro ⟨b, hb, e⟩
      obtain ⟨j', rfl, h⟩ := (hmem b).1 hb
      simp at e; subst e; exact h
    · intro h
      exact ⟨[j], (hmem _).2 ⟨j, rfl, h⟩, rfl⟩

/-- **C136 is false of the code**: in every network constructed with the default coupling the strength of a node-layer
raises `IndexError`. -/
theorem C136_false [AddCommGroup W] [IntNames α] (one : W) (directed : Bool) (noEdge : W) (aligned : Bool)
    (ops : List (POp α W)) {i x : α} (hs : Spec.HasLayer 1 aligned ops (.el x)) :
    ∃ p, newPlex one (.one .none) directed noEdge aligned = .ok p ∧ (p.run ops).strOut [i, x] none = .error .indexError := by
  refine ⟨MPlex.init [.uncoupled none] directed noEdge aligned, rfl, ?_⟩
  change (afterP [.uncoupled none] directed noEdge aligned ops).strOut [i, x] none = _
  have hcs : [Coupling.uncoupled (α := α) (none : Option W)] ≠ [] := by simp
  have hpar := after_params hcs directed noEdge aligned ops
  have hp := after_pinv hcs directed noEdge aligned ops
  obtain ⟨k, hk, -⟩ := child_degOut hcs directed noEdge aligned ops (i := i) (s := [x]) hs
  unfold strOut selectDimensions
  rw [hpar.1]
  refine sumDims_second_error (k := (((k.iterOut [i] none).map fun b => k.reads [i] b).sum)) ?_ ?_ 0
  · simp only [if_true]
    unfold onChild
    simp only [hk]
    exact MNet.strOut_spec (hp.core.kids _ _ hk).inv _ _
  · simp only [one_ne_zero, if_false]
    unfold dimStrength
    rw [hpar.2.2.2.2]
    rfl

example : (afterP [.uncoupled (some 1)] false 0 true samplePlex).strOut [2, 11] none = .ok 11 ∧
    (afterP [.uncoupled none] false 0 true samplePlex).strOut [2, 11] none = .error .indexError := by decide

end Pymnet
