import Verif.Proofs.Randomize

/-! Property C116: the random permutation of the nodes of every layer. -/

set_option linter.unusedSectionVars false
set_option linter.unusedSimpArgs false

namespace Pymnet

open Py MPlex

variable {α W : Type} [DecidableEq α] [DecidableEq W] [Zero W]

/-- Internal: the nodes of a layer. -/
def nodesListOf (p : MPlex α W) (L : LKey α) : List α := ((p.child? L).map fun c => c.slices.headD []).getD []

theorem mem_nodesListOf (c : Coupling α W) (dir : Bool) (z : W) (al : Bool) (ops : List (POp α W)) (x s : α) :
    x ∈ nodesListOf (afterP [c] dir z al ops) (.el s) ↔ Spec.HasNodeLayer 1 al ops [x, s] := by
  have hcs : [c] ≠ [] := by simp
  have hb := builtX_after [c] dir z al ops
  obtain ⟨-, -, s2, -, -⟩ := after_spec hcs dir z al ops
  by_cases hs : Spec.HasLayer 1 al ops (.ofList [s])
  · have hLY := (hasLayer_LYs (cs := [c]) (LY := fun a x => ∃ op ∈ ops, Spec.NamesLayerP [c].length al a x op)
      (fun _ _ _ _ => Iff.rfl) [s]).1 hs
    obtain ⟨k, hk, -, -, -, -, -, hm, -⟩ := hb.child hcs hLY
    have : nodesListOf (afterP [c] dir z al ops) (.el s) = k.slices.headD [] := by
      unfold nodesListOf
      rw [show (LKey.el s) = .ofList [s] from rfl, hk]; rfl
    rw [this, hm]
    cases al with
    | true =>
      simp only [if_true]
      constructor
      · intro h; exact ⟨x, [s], rfl, rfl, .inl ⟨rfl, h, hs⟩⟩
      · rintro ⟨n, t, e, -, ⟨-, h, -⟩ | ⟨h, -⟩⟩
        · cases e; exact h
        · cases h
    | false =>
      simp only [Bool.false_eq_true, if_false]
      constructor
      · intro h; exact ⟨x, [s], rfl, rfl, .inr ⟨rfl, h⟩⟩
      · rintro ⟨n, t, e, -, ⟨h, -⟩ | ⟨-, h⟩⟩
        · cases h
        · cases e; exact h
  · have hnone : (afterP [c] dir z al ops).child? (.el s) = none := by
      cases hc : (afterP [c] dir z al ops).child? (.el s) with
      | none => rfl
      | some k => exact absurd ((s2 (.el s)).1 (by rw [hc]; rfl)) hs
    refine iff_of_false (by unfold nodesListOf; rw [hnone]; simp) ?_
    rintro ⟨n, t, e, hl, ⟨-, -, h⟩ | ⟨h0, h⟩⟩
    · cases e; exact hs h
    · cases e
      subst h0
      have := (hb.onLayer hcs hl h).2
      exact hs ((hasLayer_LYs (cs := [c]) (LY := fun a x => ∃ op ∈ ops, Spec.NamesLayerP [c].length false a x op)
        (fun _ _ _ _ => Iff.rfl) [s]).2 this)

/-- **C116.** `randomize_nodes_by_layer` of a multiplex network with one aspect, for every outcome of the random shuffles: the layers
and the nodes on every layer are the same, and the links of a layer are those of the original layer with its nodes permuted, with the
same weights. The permutation `f s` of layer `s` maps the nodes of the layer, in the order of iteration, to the shuffled list: every
permutation is the result of some shuffle. -/
theorem C116_randomize (c : Coupling α W) (hnet : ∀ m, c ≠ .net m) (dir : Bool) (z : W) (al : Bool) (ops : List (POp α W))
    (shuf : LKey α → List α → List α) (hsh : ∀ L l, (shuf L l).Perm l) :
    ∃ f ops', (afterP [c] dir z al ops).randomizeNodes shuf = .ok (afterP [c] dir z al ops') ∧
      Spec.Permuted dir al ops f ops' ∧
      ∀ s, Spec.HasLayer 1 al ops (.el s) → ∃ l, (afterP [c] dir z al ops).iterNodes (some (.el s)) = .ok l ∧
        l.map (f s) = shuf (.el s) l := by
  have hcs : [c] ≠ [] := by simp
  have hb := builtX_after [c] dir z al ops
  have hpar := after_params hcs dir z al ops
  have hpi := after_pinv hcs dir z al ops
  obtain ⟨s0, s1, s2, s3, s4⟩ := after_spec hcs dir z al ops
  have hL := C25_layers hcs dir z al ops
  have hmn := mem_nodesListOf c dir z al ops
  have han := an_after [c] dir z al ops
  set p := afterP [c] dir z al ops with hp
  set LY : Nat → α → Prop := fun a x => ∃ op ∈ ops, Spec.NamesLayerP [c].length al a x op with hLYd
  have hLYs : ∀ s, Spec.HasLayer 1 al ops (.el s) ↔ LYs [c].length LY [s] := fun s =>
    hasLayer_LYs (cs := [c]) (fun _ _ _ _ => Iff.rfl) [s]
  have hLY1 : ∀ s, Spec.HasLayer 1 al ops (.el s) ↔ LY 1 s := by
    intro s
    rw [hLYs]
    constructor
    · intro h; exact h.2 0 s rfl
    · intro h
      refine ⟨rfl, fun k x hx => ?_⟩
      match k, hx with
      | 0, hx => cases hx; exact h
  have hlayers : ∀ x, x ∈ p.iterLayers.flatMap LKey.toList ↔ LY 1 x := by
    intro x
    rw [List.mem_flatMap, ← hLY1]
    constructor
    · rintro ⟨L, h1, h2⟩
      have h3 := (hL.2.2 L).1 h1
      obtain ⟨t, rfl, ht, -⟩ := id h3
      match t, ht with
      | [y], _ =>
        simp only [LKey.ofList, LKey.toList, List.mem_singleton] at h2
        subst h2; exact h3
    · intro h; exact ⟨.el x, (hL.2.2 _).2 h, by simp [LKey.toList]⟩
  -- the empty copy
  obtain ⟨ops0, e0, P⟩ := C84_subnet (dir := dir) (z := z) (al := al) (ops := ops) hcs
    (by intro m hm; simp at hm; exact hnet m hm.symm) (sel := [some [], some (p.iterLayers.flatMap LKey.toList)]) rfl false
    (.inr (by
      rintro s ⟨hs, h⟩
      match s, hs with
      | [x], _ =>
        refine (hLY1 x).2 ?_
        rcases h 0 x rfl with ⟨l, h1, h2⟩ | ⟨h1, -⟩
        · simp at h1; subst h1; exact (hlayers x).1 h2
        · simp at h1))
  have hno0 : ∀ x, ¬ Spec.Chosen [some [], some (p.iterLayers.flatMap LKey.toList)] 0 x := by
    rintro x ⟨o, h1, h2⟩
    simp at h1; subst h1
    simpa using h2 [] rfl
  have h0 : BuiltX (afterP [c] dir z al ops0) [c] dir z al (Spec.NoIntraSelf ops) (fun _ => False) LY (fun _ _ => False)
      (fun _ _ _ => 0) := by
    refine ⟨ops0, rfl, P.noself, fun x => ?_, fun a x a1 a2 => ?_, fun ha n s hs => ?_, fun s i j hs => ?_⟩
    · rw [P.nodes]
      refine iff_of_false ?_ id
      split
      · exact fun h => hno0 _ h.2
      · rintro ⟨s, -, h⟩; exact hno0 _ (h 0 x rfl)
    · rw [P.layers a x a1 a2]
      have : a = 1 := by simp at a2; omega
      subst this
      refine and_iff_left_of_imp fun h => ⟨_, rfl, fun l hl => ?_⟩
      cases hl; exact (hlayers x).2 h
    · refine iff_of_false (fun h => ?_) id
      have := (P.nodeLayers (n :: s)).1 ⟨n, s, rfl, hs, .inr ⟨ha, h⟩⟩
      exact hno0 _ (this.2 0 n rfl)
    · rw [P.link s i j hs, if_neg (fun h => hno0 _ h.2.2.1)]
  -- the loop over the layers
  have hkey : ∀ L, L ∈ Dict.keys p.A ↔ ∃ s, L = .el s ∧ LY 1 s := by
    intro L
    rw [Dict.mem_keys]
    have h1 : (Dict.get p.A L).isSome = true ↔ (p.child? L).isSome = true := by unfold child?; rw [Option.isSome_map]
    rw [h1, s2]
    constructor
    · intro h
      obtain ⟨t, rfl, ht, -⟩ := id h
      match t, ht with
      | [y], _ => exact ⟨y, rfl, (hLY1 y).1 h⟩
    · rintro ⟨s, rfl, h⟩; exact (hLY1 s).2 h
  set f : α → α → α := fun s => shuffled (nodesListOf p (.el s)) (shuf (.el s) (nodesListOf p (.el s))) with hf
  have hchild : ∀ s, LY 1 s → ∃ k, p.child? (.el s) = some k ∧ k.Inv ∧ k.aspects = 0 ∧ k.directed = dir ∧ k.noEdge = 0 ∧
      k.slices.headD [] = nodesListOf p (.el s) ∧ ∀ i j, k.reads [i] [j] = Spec.readP 1 dir al ops [s] i j := by
    intro s hs
    obtain ⟨k, h1, h2, h3, h4, h5, -, -, h6⟩ := hb.child hcs ((hLYs s).1 ((hLY1 s).2 hs))
    exact ⟨k, h1, h2, h3, h4, h5, by unfold nodesListOf; rw [show (LKey.el s) = .ofList [s] from rfl, h1]; rfl, h6⟩
  obtain ⟨q, e1, R', h1, -, h2⟩ := forE_ok (f := shuffleLayer p shuf) (s := afterP [c] dir z al ops0)
    (P := fun pre q => ∃ R', BuiltX q [c] dir z al (Spec.NoIntraSelf ops) (fun x => ∃ L ∈ pre, x ∈ nodesListOf p L) LY
      (fun n t => LKey.ofList t ∈ pre ∧ n ∈ nodesListOf p (.ofList t)) R' ∧
      (∀ t, LKey.ofList t ∉ pre → ∀ a b, R' t a b = 0) ∧
      ∀ s, LKey.el s ∈ pre → ∀ i ∈ nodesListOf p (.el s), ∀ j ∈ nodesListOf p (.el s),
        R' [s] (f s i) (f s j) = Spec.readP 1 dir al ops [s] i j) (Dict.keys p.A)
    ⟨_, h0.congr (by simp) (by simp) (by simp) (fun _ _ _ _ => rfl), fun _ _ _ _ => rfl, by simp⟩
    (by
      rintro pre L post q hpre ⟨R1, g1, g2, g3⟩
      obtain ⟨s, rfl, hs⟩ := (hkey L).1 (by rw [hpre]; simp)
      have hnot : LKey.el s ∉ pre := by
        have : (Dict.keys p.A).Nodup := han
        rw [hpre, List.nodup_append] at this
        exact fun hm => this.2.2 _ hm _ (by simp) rfl
      obtain ⟨k, k1, k2, k3, k4, k5, k6, k7⟩ := hchild s hs
      obtain ⟨q', R2, e, j1, j2, j3⟩ := shuffleLayer_spec g1 hcs (s := [s]) ((hLYs s).1 ((hLY1 s).2 hs)) (p := p) k1 k2 k3 k4 k5
        (fun hn i => by
          rw [k7]; refine (s4 [s] i i rfl).symm.trans ?_; rw [after_noself hcs dir z al ops hn]; rfl)
        (fun a b => g2 [s] hnot a b) (shuf := shuf) (hsh _ _)
      rw [k6] at j1 j3
      refine ⟨q', e, R2, j1.congr (fun x => ?_) (fun _ _ _ _ => Iff.rfl) (fun _ n t _ => ?_) (fun _ _ _ _ => rfl), fun t ht a b => ?_,
        fun s' hs' i hi j hj => ?_⟩
      · simp only [List.mem_append, List.mem_singleton, or_and_right, exists_or, exists_eq_left]
      · simp only [List.mem_append, List.mem_singleton, or_and_right]
        refine or_congr_right ⟨?_, ?_⟩
        · rintro ⟨rfl, h⟩; exact ⟨rfl, h⟩
        · rintro ⟨e, h⟩
          have e' : t = [s] := ofList_inj' (e.trans (show LKey.el s = .ofList [s] from rfl))
          subst e'; exact ⟨rfl, h⟩
      · simp only [List.mem_append, List.mem_singleton, not_or] at ht
        rw [j2 t (fun e => ht.2 (by rw [e]; rfl)), g2 t ht.1]
      · rcases List.mem_append.1 hs' with hs' | hs'
        · rw [j2 [s'] (fun e => by cases e; exact hnot hs'), g3 s' hs' i hi j hj]
        · simp only [List.mem_singleton, LKey.el.injEq] at hs'
          subst hs'
          rw [← k7]
          exact j3 i hi j hj)
  obtain ⟨ops', rfl, hns, hS, hLY', hNL, hR⟩ := h1
  have hnl : ∀ {x s}, x ∈ nodesListOf p (.el s) → LY 1 s := by
    intro x s hx
    rw [← hLY1]
    refine (s2 _).1 ?_
    unfold nodesListOf at hx
    cases hc : p.child? (.el s) with
    | none => rw [hc] at hx; simp at hx
    | some k => rfl
  have hnd : ∀ s, (nodesListOf p (.el s)).Nodup := by
    intro s
    by_cases hs : LY 1 s
    · obtain ⟨k, -, k2, k3, -, -, k6, -⟩ := hchild s hs
      rw [← k6]
      refine k2.r.snodup _ ?_
      have := MNet.headD_of_inv k2.r k3
      rw [this]; simp
    · have : nodesListOf p (.el s) = [] := by
        rw [List.eq_nil_iff_forall_not_mem]; exact fun x hx => hs (hnl hx)
      rw [this]; simp
  have hset : ∀ s, {x | Spec.HasNodeLayer 1 al ops [x, s]} = {x | x ∈ nodesListOf p (.el s)} := by
    intro s; ext x; exact (hmn x s).symm
  refine ⟨f, ops', ?_, ⟨fun s => hLY' 1 s le_rfl le_rfl, fun u => ?_, fun x => ?_, fun s => ?_, fun s i j hi hj => ?_, hns⟩, fun s hs => ?_⟩
  · unfold randomizeNodes
    rw [if_neg (by rw [hpar.1]; simp), e0]
    exact e1
  · have hx : ∀ x s, Spec.HasNodeLayer 1 al ops' [x, s] ↔ Spec.HasNodeLayer 1 al ops [x, s] := by
      intro x s
      rw [← hmn]
      have hlay : Spec.HasLayer 1 al ops' (.el s) ↔ LY 1 s := by
        rw [show Spec.HasLayer 1 al ops' (.el s) ↔ LYs 1 LY [s] from hasLayer_LYs hLY' [s]]
        exact (hLYs s).symm.trans (hLY1 s)
      constructor
      · rintro ⟨n, t, e, -, ⟨ha, h3, h4⟩ | ⟨ha, h3⟩⟩
        · cases e
          obtain ⟨L, h5, h6⟩ := (hS x).1 h3
          obtain ⟨s', rfl, -⟩ := (hkey L).1 h5
          obtain ⟨n, t, e, -, ⟨-, h7, -⟩ | ⟨h7, -⟩⟩ := (hmn x s').1 h6
          · cases e
            exact (hmn x s).2 ⟨x, [s], rfl, rfl, .inl ⟨ha, h7, (hLY1 s).2 (hlay.1 h4)⟩⟩
          · rw [ha] at h7; cases h7
        · cases e
          exact ((hNL ha x [s] rfl).1 h3).2
      · intro h
        have hl := hnl h
        have hk : LKey.el s ∈ Dict.keys p.A := (hkey _).2 ⟨s, rfl, hl⟩
        refine ⟨x, [s], rfl, rfl, ?_⟩
        cases hal : al with
        | true => rw [hal] at hlay hS; exact .inl ⟨rfl, (hS x).2 ⟨.el s, hk, h⟩, hlay.2 hl⟩
        | false => exact .inr ⟨rfl, (hNL hal x [s] rfl).2 ⟨hk, h⟩⟩
    constructor
    · intro h
      obtain ⟨n, t, rfl, ht, -⟩ := id h
      match t, ht with
      | [s], _ => exact (hx n s).1 h
    · intro h
      obtain ⟨n, t, rfl, ht, -⟩ := id h
      match t, ht with
      | [s], _ => exact (hx n s).2 h
  · rw [show Spec.Happened (Spec.NamesNodeP 1 al x) ops' ↔ _ from hS x]
    constructor
    · rintro ⟨L, h3, h4⟩
      obtain ⟨s, rfl, -⟩ := (hkey L).1 h3
      exact ⟨s, (hmn x s).1 h4⟩
    · rintro ⟨s, h⟩
      have h' := (hmn x s).2 h
      exact ⟨.el s, (hkey _).2 ⟨s, rfl, hnl h'⟩, h'⟩
  · rw [hset]
    obtain ⟨b1, b2, b3⟩ := shuffled_bij (hnd s) (hsh (.el s) (nodesListOf p (.el s)))
    exact ⟨b1, fun x hx y hy e => b2 x hx y hy e, fun y hy => by obtain ⟨x, h1, h2⟩ := b3 y hy; exact ⟨x, h1, h2⟩⟩
  · have hi' := (hmn i s).2 hi
    have hj' := (hmn j s).2 hj
    rw [← h2 s ((hkey _).2 ⟨s, rfl, hnl hi'⟩) i hi' j hj']
    exact hR [s] _ _ rfl
  · obtain ⟨k, k1, -, -, -, -, k6, -⟩ := hchild s ((hLY1 s).1 hs)
    refine ⟨nodesListOf p (.el s), ?_, (get_zip_map (hnd s) (hsh _ _).length_eq).2⟩
    unfold iterNodes
    rw [← k6]
    cases hal : al with
    | true =>
      dsimp only
      rw [if_pos (hpar.2.2.2.1.trans hal)]
      unfold child? at k1
      obtain ⟨c', -, e⟩ := Option.map_eq_some_iff.1 k1
      rw [if_pos (hpar.2.2.2.1.trans hal)] at e
      rw [← e]; rfl
    | false =>
      dsimp only
      rw [if_neg (by rw [hpar.2.2.2.1, hal]; simp), k1]

/-- **C116, errors.** A network with another number of aspects, or with couplings given by a network, is not accepted. -/
theorem C116_errors (cs : List (Coupling α W)) (hcs : cs ≠ []) (dir : Bool) (z : W) (al : Bool) (ops : List (POp α W))
    (shuf : LKey α → List α → List α) (h : cs.length ≠ 1 ∨ ∃ m, .net m ∈ cs) :
    (afterP cs dir z al ops).randomizeNodes shuf = .error .assertionError := by
  have hpar := after_params hcs dir z al ops
  unfold randomizeNodes
  split
  · rfl
  · rename_i h1
    obtain ⟨m, hm⟩ := h.resolve_left (by rw [← hpar.1]; simpa using h1)
    rw [C86_false_subnet hcs hm]

/-- The links of an example: the shuffles reverse the lists of nodes. -/
example : (match (afterP [.categorical 1] false 0 true
      [.setItem [1, 2, 10] 5, .setItem [2, 3, 10] 6, .setItem [1, 3, 20] 7] : MPlex Int Int).randomizeNodes (fun _ l => l.reverse) with
    | .ok q => ([[3, 2, 10], [2, 1, 10], [1, 3, 20], [1, 2, 20]] : List (List Int)).map q.view.readItem
    | .error _ => []) = [.ok (.weight 5), .ok (.weight 6), .ok (.weight 7), .ok (.weight 0)] := by decide +kernel

example : ∀ (L : LKey Int) (l : List Int), ((fun _ l => l.reverse) L l : List Int).Perm l := fun _ l => l.reverse_perm

end Pymnet
