import Verif.Proofs.SubnetIter
import Verif.Props.PlexSubnet
import Verif.Props.Plex3

/-! Properties C111, C112: `subnet_iter`. -/

set_option linter.unusedSectionVars false
set_option linter.unusedSimpArgs false

namespace Pymnet

open Py

variable {α W : Type} [DecidableEq α] [DecidableEq W]

variable {m : MNet α W} {d : Nat} {z : W} {dir al : Bool} {S : Nat → α → Prop} {NL : List α → Prop}
  {R : List α → List α → W}

/-- Internal: a loop whose rounds yield related things. -/
theorem collect_forall₂ {β γ : Type} {f : β → Except Err (List γ)} {Q : β → γ → Prop} {l : List β}
    (h : ∀ x ∈ l, ∃ y, f x = .ok [y] ∧ Q x y) : ∃ ys, View.collect f l = .ok ys ∧ List.Forall₂ Q l ys := by
  induction l with
  | nil => exact ⟨[], rfl, .nil⟩
  | cons x l ih =>
    obtain ⟨y, e, hq⟩ := h x (by simp)
    obtain ⟨ys, e2, hq2⟩ := ih fun x hx => h x (by simp [hx])
    exact ⟨y :: ys, by simp [View.collect, e, e2], .cons hq hq2⟩

/-- **C111.** `subnet_iter(net,remove_elayers,remove_edges=False)` of a general network yields the sub-networks of all choices of
elementary layers (and nodes) that leave at least one in each aspect of `remove_elayers` and everything in the other aspects, each
choice once. -/
theorem C111_induced (h : Spec.Looks m d z dir al S NL R) {remove : List Nat} (hr : ∀ a ∈ remove, a ≤ d) :
    ∃ cs nets, m.subnetIter remove false = .ok nets ∧ List.Forall₂ (Spec.SubnetOf d z dir al S NL R) cs nets ∧
      (∀ c ∈ cs, Spec.Choice d S remove c) ∧ cs.Pairwise (fun c c' => ¬ Spec.SameChoice c c') ∧
      ∀ c, Spec.Choice d S remove c → ∃ c' ∈ cs, Spec.SameChoice c c' := by
  obtain ⟨h1, h2, h3⟩ := choices_spec h.slices_length h.inv.r.snodup (fun a s hs => h.slice_mem hs) remove
  obtain ⟨nets, e, hf⟩ := collect_forall₂ (f := m.iterChoice false) (Q := Spec.SubnetOf d z dir al S NL R)
    (l := iterChoices m.slices remove) (by
      intro c hc
      obtain ⟨m', e, hm'⟩ := subnet_choice h (h1 c hc)
      exact ⟨m', by simp [MNet.iterChoice, e], hm'⟩)
  refine ⟨_, nets, ?_, hf, h1, h2, h3⟩
  unfold MNet.subnetIter
  rw [if_pos, e]
  rw [List.all_eq_true]
  intro a ha
  rw [decide_eq_true_iff, h.aspects_eq]
  exact hr a ha

/-- **C111.** An aspect that does not exist is an `AssertionError`. -/
theorem C111_aspects (h : Spec.Looks m d z dir al S NL R) {remove : List Nat} {a : Nat} (ha : a ∈ remove) (had : d < a)
    (removeEdges : Bool) : m.subnetIter remove removeEdges = .error .assertionError := by
  unfold MNet.subnetIter
  rw [if_neg]
  rw [List.all_eq_true]
  intro hc
  have := of_decide_eq_true (hc a ha)
  rw [h.aspects_eq] at this
  omega

/-- Names of index `a` (0 for nodes, `a ≥ 1` for the elementary layers of aspect `a`) of a multiplex network. -/
def Spec.namesP [Zero W] (aspects : Nat) (aligned : Bool) (ops : List (POp α W)) (a : Nat) (x : α) : Prop :=
  if a = 0 then Spec.Happened (Spec.NamesNodeP aspects aligned x) ops else ∃ op ∈ ops, Spec.NamesLayerP aspects aligned a x op

/-- **C111, multiplex networks.** The same holds for multiplex networks that are not coupled with a network. -/
theorem C111_multiplex [Zero W] [IntNames α] {cs : List (Coupling α W)} (hcs : cs ≠ []) (hnet : ∀ c, .net c ∉ cs) (dir : Bool) (z : W)
    (al : Bool) (ops : List (POp α W)) {remove : List Nat} (hr : ∀ a ∈ remove, a ≤ cs.length) :
    ∃ chs nets, (afterP cs dir z al ops).subnetIter remove false = .ok nets ∧
      List.Forall₂ (fun c p => ∃ ops', p = afterP cs dir z al ops' ∧ Spec.Part cs.length dir al ops (c.map some) true ops') chs nets ∧
      (∀ c ∈ chs, Spec.Choice cs.length (Spec.namesP cs.length al ops) remove c) ∧
      chs.Pairwise (fun c c' => ¬ Spec.SameChoice c c') ∧
      ∀ c, Spec.Choice cs.length (Spec.namesP cs.length al ops) remove c → ∃ c' ∈ chs, Spec.SameChoice c c' := by
  have hb := builtX_after cs dir z al ops
  have hpi := hb.pinv hcs
  have hpar := hb.params hcs
  have hlen : (afterP cs dir z al ops).slices.length = cs.length + 1 := by rw [hpi.core.slen, hpar.1]
  obtain ⟨h1, h2, h3⟩ := choices_spec (S := Spec.namesP cs.length al ops) hlen hpi.core.snodup (by
    intro a s hs x
    have ha := (List.getElem?_eq_some_iff.1 hs).1
    have := hb.mem_slices hcs (a := a) (by omega) x
    rw [List.getD_eq_getElem?_getD, hs] at this
    exact this) remove
  obtain ⟨nets, e, hf⟩ := collect_forall₂ (f := (afterP cs dir z al ops).iterChoice false)
    (Q := fun c p => ∃ ops', p = afterP cs dir z al ops' ∧ Spec.Part cs.length dir al ops (c.map some) true ops')
    (l := iterChoices (afterP cs dir z al ops).slices remove) (by
      intro c hc
      have hch := h1 c hc
      obtain ⟨ops', e, hp⟩ := C84_subnet (z := z) (dir := dir) hcs hnet (sel := c.map some) (al := al) (ops := ops)
        (by simp [hch.length]) false (.inr (by
          rintro s ⟨hs, hk⟩
          refine ⟨s, rfl, hs, fun k x hx => ?_⟩
          rcases hk k x hx with ⟨l, hl, hxl⟩ | ⟨hl, -⟩
          · rw [List.getElem?_map, Option.map_eq_some_iff] at hl
            obtain ⟨l', hl, e⟩ := hl
            cases e
            have := hch.names _ _ hl x hxl
            rwa [Spec.namesP, if_neg (by omega)] at this
          · rw [List.getElem?_map, Option.map_eq_some_iff] at hl
            obtain ⟨l', -, e⟩ := hl
            cases e))
      refine ⟨_, ?_, ops', rfl, by simpa using hp⟩
      simp [MPlex.iterChoice, e])
  refine ⟨_, nets, ?_, hf, h1, h2, h3⟩
  unfold MPlex.subnetIter
  rw [if_pos, e]
  rw [List.all_eq_true]
  intro a ha
  rw [decide_eq_true_iff, hpar.1]
  exact hr a ha

example : ((after 1 0 false true transOps).subnetIter [0, 1] false).map List.length = .ok (15 * 7) := by decide +kernel

example : ((MPlex.init [.categorical (1 : Int)] false 0 true).run exSubOps).subnetIter [1] false =
    .ok [(MPlex.init [.categorical 1] false 0 true).run [.addNode 1 none, .addNode 2 none, .addNode 3 none, .addNode 4 none, .setItem [1, 2, 10] 5],
      (MPlex.init [.categorical 1] false 0 true).run [.addNode 1 none, .addNode 2 none, .addNode 3 none, .addNode 4 none, .setItem [2, 3, 20] 7],
      (MPlex.init [.categorical 1] false 0 true).run [.addNode 1 none, .addNode 2 none, .addNode 3 none, .addNode 4 none, .addLayer 10 1, .addLayer 20 1,
        .setItem [1, 2, 10] 5, .setItem [2, 3, 20] 7]] := by decide +kernel

/-! ### C112 -/

theorem Spec.Looks.built (h : Spec.Looks m d z dir al S NL R) : Built m d z dir al m.inSlice (· ∈ m.nodeLayers) m.reads := by
  refine ⟨h.reachable, fun _ _ => Iff.rfl, fun hd ha n t ht => ?_, fun _ _ => rfl⟩
  rw [MNet.mem_nodeLayers h.inv.r, if_neg (by rw [h.aligned_eq, ha]; simp)]
  constructor
  · exact fun hn => ⟨by simp [ht, h.aspects_eq], n, t, rfl, hn⟩
  · rintro ⟨-, n', t', e, hn⟩
    cases e; exact hn

/-- The two node-layers of a link, in the given order or, in undirected networks, in either order. -/
def Spec.Ends (dir : Bool) (p : List α × List α) (u v : List α) : Prop := (u = p.1 ∧ v = p.2) ∨ (dir = false ∧ u = p.2 ∧ v = p.1)

open Classical in
/-- Internal: the loop that adds the chosen links. -/
theorem addChosen {sub new : MNet α W} {S1 : Nat → α → Prop} {NL1 : List α → Prop} {R1 : List α → List α → W}
    (hsub : Spec.Looks sub d z dir al S1 NL1 R1) {S2 : Nat → α → Prop} {NL2 : List α → Prop}
    (hnew : Built new d z dir al S2 NL2 (fun _ _ => z)) (ps : List (List α × List α))
    (hps : ∀ p ∈ ps, p.1.length = d + 1 ∧ p.2.length = d + 1) (w : List α × List α → W) :
    ∃ new', forE (setFrom sub) (ps.map fun p => (interleave p.1 p.2, w p)) new = .ok new' ∧
      Built new' d z dir al (fun k x => S2 k x ∨ ∃ p ∈ ps, p.1[k]? = some x ∨ p.2[k]? = some x)
        (fun nl => NL2 nl ∨ ∃ p ∈ ps, nl = p.1 ∨ nl = p.2)
        (fun u v => if ∃ p ∈ ps, Spec.Ends dir p u v then R1 u v else z) := by
  have key : ∀ (qs : List (List α × List α)), (∀ p ∈ qs, p.1.length = d + 1 ∧ p.2.length = d + 1) →
      ∀ {new : MNet α W} {S2 : Nat → α → Prop} {NL2 : List α → Prop} {F : List α → List α → Prop},
      Built new d z dir al S2 NL2 (fun u v => if F u v then R1 u v else z) →
      ∃ new', forE (setFrom sub) (qs.map fun p => (interleave p.1 p.2, w p)) new = .ok new' ∧
        Built new' d z dir al (fun k x => S2 k x ∨ ∃ p ∈ qs, p.1[k]? = some x ∨ p.2[k]? = some x)
          (fun nl => NL2 nl ∨ ∃ p ∈ qs, nl = p.1 ∨ nl = p.2)
          (fun u v => if F u v ∨ ∃ p ∈ qs, Spec.Ends dir p u v then R1 u v else z) := by
    intro qs
    induction qs with
    | nil =>
      intro _ new S2 NL2 F hb
      exact ⟨new, rfl, hb.congr (by simp) (by simp) (by simp)⟩
    | cons q qs ih =>
      intro hqs new S2 NL2 F hb
      obtain ⟨hu, hv⟩ := hqs q (by simp)
      have hadr : Spec.Addresses d (interleave q.1 q.2) q.1 q.2 := ⟨hu, hv, .inl (interleave_eq_link _ _)⟩
      have hread := hsub.reads _ _ _ hadr
      obtain ⟨new1, e1, hb1⟩ := hb.setItem hadr (R1 q.1 q.2) (by
        intro _ huv hw
        rw [← huv] at hw ⊢
        split
        · exact hw
        · rfl)
      have hb1' : Built new1 d z dir al (fun k x => S2 k x ∨ (q.1[k]? = some x ∨ q.2[k]? = some x))
          (fun nl => NL2 nl ∨ (nl = q.1 ∨ nl = q.2))
          (fun u v => if F u v ∨ Spec.Ends dir q u v then R1 u v else z) := by
        refine hb1.congr (fun _ _ => Iff.rfl) (fun _ => Iff.rfl) (fun a b => ?_)
        by_cases he : Spec.Ends dir q a b
        · rw [if_pos (c := a = q.1 ∧ b = q.2 ∨ dir = false ∧ a = q.2 ∧ b = q.1) he, if_pos (.inr he)]
          rcases he with ⟨rfl, rfl⟩ | ⟨hd, rfl, rfl⟩
          · rfl
          · subst hd; exact hsub.sym hu hv
        · rw [if_neg (c := a = q.1 ∧ b = q.2 ∨ dir = false ∧ a = q.2 ∧ b = q.1) he]
          simp only [he, or_false]
      obtain ⟨new2, e2, hb2⟩ := ih (fun p hp => hqs p (by simp [hp])) (F := fun u v => F u v ∨ Spec.Ends dir q u v)
        (hb1'.congr (fun _ _ => Iff.rfl) (fun _ => Iff.rfl) fun _ _ => by congr)
      refine ⟨new2, ?_, hb2.congr (fun k x => ?_) (fun nl => ?_) (fun a b => ?_)⟩
      · have e0 : setFrom sub new (interleave q.1 q.2, w q) = .ok new1 := by
          simp only [setFrom, hread]
          exact e1
        simp only [List.map_cons, forE, e0]
        exact e2
      · simp [or_assoc]
      · simp [or_assoc]
      · simp [or_assoc]
  obtain ⟨new', e, hb⟩ := key ps hps (F := fun _ _ => False) (new := new) (S2 := S2) (NL2 := NL2)
    (hnew.congr (fun _ _ => Iff.rfl) (fun _ => Iff.rfl) (by simp))
  exact ⟨new', e, hb.congr (fun _ _ => Iff.rfl) (fun _ => Iff.rfl) (by simp)⟩

open Classical in
/-- Internal: what is yielded for one choice of elementary layers when links can be removed. -/
theorem iterChoice_edges (h : Spec.Looks m d z dir al S NL R) {remove : List Nat} {c : List (List α)} (hc : Spec.Choice d S remove c)
    {ps : List (List α × List α)} (hes : m.view.edges = .ok (ps.map (View.tuple m.reads)))
    (hlen : m.view.edgesLen = .ok ((ps.map (View.tuple m.reads)).length : Int))
    (hps : ∀ p ∈ ps, p.1.length = d + 1 ∧ p.2.length = d + 1) :
    ∃ nets, m.iterChoice true c = .ok nets ∧
      List.Forall₂ (fun (chosen : List (List α × List α)) m' =>
        (∀ p ∈ chosen, Spec.Within c p.1 ∧ Spec.Within c p.2 ∧ NL p.1 ∧ NL p.2) →
        Spec.SubnetOf d z dir al S NL (fun u v => if ∃ p ∈ chosen, Spec.Ends dir p u v then R u v else z) c m')
        (allCombinations ps.length ps) nets := by
  obtain ⟨sub, e, hsub⟩ := subnet_choice h hc
  have hsub' := hsub
  unfold Spec.SubnetOf at hsub'
  obtain ⟨new, e2, hnew⟩ := C28_subnet_partial hsub' (sel := c.map some) (by simp [hc.length]) true
  have hmap : allCombinations (ps.length) (ps.map (View.tuple m.reads)) =
      (allCombinations ps.length ps).map (List.map (View.tuple m.reads)) := by
    unfold allCombinations
    rw [List.map_flatMap]
    exact congrArg (fun f => List.flatMap f (List.range (ps.length + 1))) (funext fun k => combinations_map _ ps k)
  obtain ⟨nets, e3, hf⟩ := collect_forall₂ (f := fun chosen => match sub.subnet (c.map some) true with
      | .error e => .error e
      | .ok new =>
        match forE (setFrom sub) chosen new with
        | .error e => .error e
        | .ok new => .ok [new])
    (Q := fun es m' => ∀ chosen : List (List α × List α), es = chosen.map (View.tuple m.reads) → (∀ p ∈ chosen, p ∈ ps) →
        (∀ p ∈ chosen, Spec.Within c p.1 ∧ Spec.Within c p.2 ∧ NL p.1 ∧ NL p.2) →
        Spec.SubnetOf d z dir al S NL (fun u v => if ∃ p ∈ chosen, Spec.Ends dir p u v then R u v else z) c m')
    (l := (allCombinations ps.length ps).map (List.map (View.tuple m.reads))) (by
      intro es hes
      obtain ⟨chosen0, hch0, rfl⟩ := List.mem_map.1 hes
      have hsub0 := (mem_allCombinations.1 hch0).subset
      have hz : Built new d z dir al new.inSlice (· ∈ new.nodeLayers) (fun _ _ => z) := by
        refine hnew.built.congr (fun _ _ => Iff.rfl) (fun _ => Iff.rfl) fun a b => ?_
        by_contra hne
        obtain ⟨w, hw⟩ := Option.isSome_iff_exists.1 ((MNet.reads_ne_noEdge hnew.inv.l a b).1 (by rw [hnew.noEdge_eq]; exact hne))
        have ra := hnew.inv.sound.length_of_mem ((MNet.reg_iff hnew.inv.r a).1 (hnew.inv.reg a b w hw).1)
        have rb := hnew.inv.sound.length_of_mem ((MNet.reg_iff hnew.inv.r b).1 (hnew.inv.reg a b w hw).2)
        have hv : new.view.aspects = d := hnew.aspects_eq
        rw [hv] at ra rb
        exact hne ((hnew.reads_eq ra rb).trans (by simp))
      obtain ⟨new', e4, hb⟩ := addChosen hsub' hz chosen0 (fun p hp => hps p (hsub0 hp)) (fun p => m.reads p.1 p.2)
      refine ⟨new', ?_, ?_⟩
      · simp only [e2]
        have : forE (setFrom sub) (chosen0.map (View.tuple m.reads)) new = .ok new' := e4
        rw [this]
      · intro chosen heq hmem hin
        have hinj : ∀ (l l' : List (List α × List α)), (∀ p ∈ l, p ∈ ps) → (∀ p ∈ l', p ∈ ps) →
            l.map (View.tuple m.reads) = l'.map (View.tuple m.reads) → l = l' := by
          intro l
          induction l with
          | nil => intro l' _ _ he; cases l' with
            | nil => rfl
            | cons => simp at he
          | cons p l ih =>
            intro l' h1 h2 he
            cases l' with
            | nil => simp at he
            | cons q l' =>
              simp only [List.map_cons, List.cons.injEq] at he
              have hp := hps p (h1 p (by simp))
              have hq := hps q (h2 q (by simp))
              obtain ⟨a1, a2⟩ := interleave_inj (by omega) (by omega) (congrArg Prod.fst he.1)
              rw [ih l' (fun p hp => h1 p (by simp [hp])) (fun p hp => h2 p (by simp [hp])) he.2, Prod.ext a1 a2]
        have := hinj _ _ (fun p hp => hsub0 hp) hmem heq
        subst this
        have hl := hb.looks h.al0 (by
          rintro - nl (hn | ⟨p, hp, rfl | rfl⟩)
          · exact hnew.nl_length ((hnew.nodeLayers.2 nl).1 hn)
          · exact (hps p (hmem p hp)).1
          · exact (hps p (hmem p hp)).2)
        have hnames : ∀ k ≤ d, ∀ x, (new.inSlice k x ∨ ∃ p ∈ chosen0, p.1[k]? = some x ∨ p.2[k]? = some x) ↔
            new.inSlice k x := by
          intro k hk x
          refine or_iff_left_of_imp ?_
          have aux : ∀ nl : List α, NL nl → Spec.Within c nl → nl[k]? = some x → new.inSlice k x := by
            intro nl h1 h2 h3
            rw [hnew.inSlice hk]
            have hw : Spec.Selected (c.map some) nl := (selected_map_some c nl).2 h2
            split
            · rename_i hk0
              obtain ⟨-, rfl⟩ := hk0
              exact ⟨nl, ⟨h1, h2⟩, hw, h3⟩
            · rename_i hk0
              have hk' : k < c.length := by rw [hc.length]; omega
              refine ⟨⟨((h.mem_product nl).1 (h.nl_product h1)).2 k x h3, c[k], List.getElem?_eq_getElem hk',
                h2 k x _ h3 (List.getElem?_eq_getElem hk')⟩, fun l hl => ?_⟩
              exact hw k x l h3 hl
          rintro ⟨p, hp, h3 | h3⟩
          · exact aux p.1 (hin p hp).2.2.1 (hin p hp).1 h3
          · exact aux p.2 (hin p hp).2.2.2 (hin p hp).2.1 h3
        have hnls : ∀ nl, (nl ∈ new.nodeLayers ∨ ∃ p ∈ chosen0, nl = p.1 ∨ nl = p.2) ↔ (NL nl ∧ Spec.Within c nl) := by
          intro nl
          rw [hnew.nodeLayers.2, selected_map_some]
          constructor
          · rintro (⟨h1, -⟩ | ⟨p, hp, rfl | rfl⟩)
            · exact h1
            · exact ⟨(hin p hp).2.2.1, (hin p hp).1⟩
            · exact ⟨(hin p hp).2.2.2, (hin p hp).2.1⟩
          · exact fun h1 => .inl ⟨h1, h1.2⟩
        have hSnew : ∀ k ≤ d, ∀ x, new.inSlice k x ↔ (if al = false ∧ k = 0 then ∃ nl, NL nl ∧ Spec.Within c nl ∧ nl[0]? = some x
            else S k x ∧ ∃ s, c[k]? = some s ∧ x ∈ s) := by
          intro k hk x
          rw [hnew.inSlice hk]
          split
          · simp only [selected_map_some]
            exact ⟨fun ⟨nl, h1, _, h3⟩ => ⟨nl, h1.1, h1.2, h3⟩, fun ⟨nl, h1, h2, h3⟩ => ⟨nl, ⟨h1, h2⟩, h2, h3⟩⟩
          · refine and_iff_left_of_imp ?_
            rintro ⟨-, s, hs, hx⟩ l hl
            rw [List.getElem?_map, hs] at hl
            cases hl; exact hx
        unfold Spec.SubnetOf
        refine hl.congr (fun k hk x => (hnames k hk x).trans (hSnew k hk x)) (fun nl => ?_) (fun u v hu hv => ?_)
        · cases hal : al with
          | false => simp only [Bool.false_eq_true, if_false]; exact hnls nl
          | true =>
            subst hal
            rw [if_pos rfl]
            have h1 := hnew.nl_aligned nl
            rw [selected_map_some] at h1
            have h2 : (NL nl ∧ Spec.Within c nl) ↔ (NL nl ∧ Spec.Within c nl) ∧ Spec.Within c nl := ⟨fun h => ⟨h, h.2⟩, fun h => h.1⟩
            rw [h2, h1]
            refine and_congr_right fun hnl => forall_congr' fun i => forall_congr' fun x => imp_congr_right fun hx => ?_
            have hi : i ≤ d := by have := (List.getElem?_eq_some_iff.1 hx).1; omega
            exact (hnames i hi x).trans (hnew.inSlice hi x)
        · by_cases hF : ∃ p ∈ chosen0, Spec.Ends dir p u v
          · have hw : Spec.Within c u ∧ Spec.Within c v := by
              obtain ⟨p, hp, ⟨rfl, rfl⟩ | ⟨-, rfl, rfl⟩⟩ := hF
              · exact ⟨(hin p hp).1, (hin p hp).2.1⟩
              · exact ⟨(hin p hp).2.1, (hin p hp).1⟩
            simp only [if_pos hF, if_pos hw]
          · simp only [if_neg hF, ite_self])
  refine ⟨nets, ?_, ?_⟩
  · unfold MNet.iterChoice
    simp only [e, if_true, hlen, hes, List.length_map, Int.toNat_natCast]
    rw [hmap]
    exact e3
  · rw [List.forall₂_map_left_iff] at hf
    have : ∀ {l : List (List (List α × List α))} {ns : List (MNet α W)}, (∀ ch ∈ l, ∀ p ∈ ch, p ∈ ps) →
        List.Forall₂ (fun ch m' => ∀ chosen : List (List α × List α), ch.map (View.tuple m.reads) = chosen.map (View.tuple m.reads) →
          (∀ p ∈ chosen, p ∈ ps) → (∀ p ∈ chosen, Spec.Within c p.1 ∧ Spec.Within c p.2 ∧ NL p.1 ∧ NL p.2) →
          Spec.SubnetOf d z dir al S NL (fun u v => if ∃ p ∈ chosen, Spec.Ends dir p u v then R u v else z) c m') l ns →
        List.Forall₂ (fun (chosen : List (List α × List α)) m' =>
          (∀ p ∈ chosen, Spec.Within c p.1 ∧ Spec.Within c p.2 ∧ NL p.1 ∧ NL p.2) →
          Spec.SubnetOf d z dir al S NL (fun u v => if ∃ p ∈ chosen, Spec.Ends dir p u v then R u v else z) c m') l ns := by
      intro l ns hl hfa
      induction hfa with
      | nil => exact .nil
      | cons ha _ ih => exact .cons (fun hin => ha _ rfl (hl _ (by simp)) hin) (ih fun ch hch => hl ch (by simp [hch]))
    exact this (fun ch hch p hp => (mem_allCombinations.1 hch).subset hp) hf

/-- Internal: the links of a network, as pairs of node-layers. -/
theorem Spec.Looks.linkPairs (h : Spec.Looks m d z dir al S NL R) : ∃ ps : List (List α × List α),
    m.view.edges = .ok (ps.map (View.tuple m.reads)) ∧ m.view.edgesLen = .ok ((ps.map (View.tuple m.reads)).length : Int) ∧ ps.Nodup ∧
    (∀ p ∈ ps, p.1.length = d + 1 ∧ p.2.length = d + 1 ∧ R p.1 p.2 ≠ z) ∧
    (∀ u v, u.length = d + 1 → v.length = d + 1 → R u v ≠ z → ∃ p ∈ ps, Spec.Ends dir p u v) ∧
    ∀ p ∈ ps, ∀ q ∈ ps, Spec.Ends dir p q.1 q.2 → p = q := by
  obtain ⟨ps, h1, h2, h3, h4, h5⟩ := h.sound.edges
  obtain ⟨es, k1, k2⟩ := h.sound.edgesLen
  rw [h1] at k1; cases k1
  have hd : m.view.directed = dir := h.directed_eq
  have hz : m.view.noEdge = z := h.noEdge_eq
  have hasp : m.view.aspects = d := h.aspects_eq
  have hlen : ∀ a ∈ product m.view.slices, a.length = d + 1 := fun a ha => by
    rw [h.sound.length_of_mem ha, hasp]
  refine ⟨ps, h1, k2, h2, fun p hp => ?_, fun u v hu hv hR => ?_, fun p hp q hq he => ?_⟩
  · obtain ⟨a, b, c⟩ := h3 p hp
    refine ⟨hlen _ a, hlen _ b, ?_⟩
    rwa [hz, h.reads_eq (hlen _ a) (hlen _ b)] at c
  · obtain ⟨hu', hv'⟩ := h.linked hu hv hR
    have hR' : m.reads u v ≠ m.view.noEdge := by rwa [hz, h.reads_eq hu hv]
    cases hdir : dir with
    | true => exact ⟨(u, v), h4 (hd.trans hdir) u hu'.1 v hv'.1 hR', .inl ⟨rfl, rfl⟩⟩
    | false =>
      rcases (h5 (hd.trans hdir)).1 u hu'.1 v hv'.1 hR' with k | k
      · exact ⟨_, k, .inl ⟨rfl, rfl⟩⟩
      · exact ⟨_, k, .inr ⟨rfl, rfl, rfl⟩⟩
  · rcases he with ⟨e1, e2⟩ | ⟨hdir, e1, e2⟩
    · exact Prod.ext e1.symm e2.symm
    · by_cases hab : p.1 = p.2
      · exact Prod.ext (by rw [e1, hab]) (by rw [e2, hab])
      · refine absurd ?_ ((h5 (hd.trans hdir)).2 p.1 p.2 hab hp)
        rw [← e1, ← e2]; exact hq

open Classical in
/-- **C112, every sub-network is yielded.** With `remove_edges=True`, for every choice of elementary layers and nodes and every set
of links between chosen node-layers, one of the networks yielded has the chosen node-layers and exactly these links. Missing: no other
network is yielded, each once (`C112_false`, `C112_spanning_partial`); multiplex networks (`C112_false_multiplex`). -/
theorem C112_every_partial (h : Spec.Looks m d z dir al S NL R) {remove : List Nat} (hr : ∀ a ∈ remove, a ≤ d) :
    ∃ nets, m.subnetIter remove true = .ok nets ∧
      ∀ c, Spec.Choice d S remove c → ∀ F : List α → List α → Prop, (∀ u v, F u v → Spec.Within c u ∧ Spec.Within c v ∧ R u v ≠ z) →
        (dir = false → ∀ u v, F u v → F v u) →
        ∃ m' ∈ nets, Spec.SubnetOf d z dir al S NL (fun u v => if F u v then R u v else z) c m' := by
  obtain ⟨ps, e1, e2, hn, hps, hall, -⟩ := h.linkPairs
  obtain ⟨h1, h2, h3⟩ := choices_spec h.slices_length h.inv.r.snodup (fun a s hs => h.slice_mem hs) remove
  have hlens : ∀ p ∈ ps, p.1.length = d + 1 ∧ p.2.length = d + 1 := fun p hp => ⟨(hps p hp).1, (hps p hp).2.1⟩
  choose! g hg hg2 using fun c (hc : c ∈ iterChoices m.slices remove) => iterChoice_edges h (h1 c hc) e1 e2 hlens
  refine ⟨(iterChoices m.slices remove).flatMap g, ?_, fun c hc F hF hsym => ?_⟩
  · unfold MNet.subnetIter
    rw [if_pos, View.collect_ok hg]
    rw [List.all_eq_true]
    intro a ha
    rw [decide_eq_true_iff, h.aspects_eq]
    exact hr a ha
  · obtain ⟨c', hc', hsame⟩ := h3 c hc
    have hw : ∀ nl, Spec.Within c nl ↔ Spec.Within c' nl := by
      intro nl
      rw [Spec.SameChoice, MNet.forall₂_iff_getElem] at hsame
      unfold Spec.Within
      refine forall_congr' fun a => forall_congr' fun x => ?_
      constructor
      · intro k s' hx hs'
        have ha := (List.getElem?_eq_some_iff.1 hs').1
        have hs := List.getElem?_eq_getElem (l := c) (i := a) (by rw [hsame.1]; exact ha)
        exact (hsame.2 a _ _ hs hs' x).1 (k _ hx hs)
      · intro k s hx hs
        have ha := (List.getElem?_eq_some_iff.1 hs).1
        have hs' := List.getElem?_eq_getElem (l := c') (i := a) (by rw [← hsame.1]; exact ha)
        exact (hsame.2 a _ _ hs hs' x).2 (k _ hx hs')
    have hmem : ps.filter (fun p => decide (F p.1 p.2)) ∈ allCombinations ps.length ps := mem_allCombinations.2 List.filter_sublist
    obtain ⟨i, hi⟩ := List.getElem?_of_mem hmem
    have hf := hg2 c' hc'
    rw [MNet.forall₂_iff_getElem] at hf
    have hi' : i < (g c').length := by rw [← hf.1]; exact (List.getElem?_eq_some_iff.1 hi).1
    have hq := hf.2 i _ _ hi (List.getElem?_eq_getElem hi') (by
      intro p hp
      rw [List.mem_filter, decide_eq_true_iff] at hp
      obtain ⟨f1, f2, f3⟩ := hF _ _ hp.2
      have := h.linked (hlens p hp.1).1 (hlens p hp.1).2 f3
      exact ⟨(hw _).1 f1, (hw _).1 f2, this.1.2, this.2.2⟩)
    refine ⟨_, List.mem_flatMap.2 ⟨c', hc', List.getElem_mem hi'⟩, ?_⟩
    unfold Spec.SubnetOf at hq ⊢
    refine hq.congr (fun k hk x => ?_) (fun nl => by rw [hw]) (fun u v hu hv => ?_)
    · simp only [hw]
      split
      · exact Iff.rfl
      · refine and_congr_right fun _ => ?_
        rw [Spec.SameChoice, MNet.forall₂_iff_getElem] at hsame
        have k1 := List.getElem?_eq_getElem (l := c) (i := k) (by rw [hc.length]; omega)
        have k2 := List.getElem?_eq_getElem (l := c') (i := k) (by rw [← hsame.1, hc.length]; omega)
        have := hsame.2 k _ _ k1 k2 x
        rw [k1, k2]
        simp [this]
    · rw [← hw, ← hw]
      have hiff : (∃ p ∈ ps.filter (fun p => decide (F p.1 p.2)), Spec.Ends dir p u v) ↔ F u v := by
        constructor
        · rintro ⟨p, hp, he⟩
          rw [List.mem_filter, decide_eq_true_iff] at hp
          rcases he with ⟨rfl, rfl⟩ | ⟨hd, rfl, rfl⟩
          · exact hp.2
          · exact hsym hd _ _ hp.2
        · intro hf
          obtain ⟨p, hp, he⟩ := hall u v hu hv (hF u v hf).2.2
          refine ⟨p, ?_, he⟩
          rw [List.mem_filter, decide_eq_true_iff]
          refine ⟨hp, ?_⟩
          rcases he with ⟨rfl, rfl⟩ | ⟨hd, rfl, rfl⟩
          · exact hf
          · exact hsym hd _ _ hf
      simp only [hiff]

open Classical in
/-- **C112, nothing removed but links.** With `remove_elayers=[]` the networks yielded are those with the node-layers of the network
and some of its links: one for each set of links. -/
theorem C112_spanning_partial (h : Spec.Looks m d z dir al S NL R) :
    ∃ (c : List (List α)) (Fs : List (List (List α × List α))) (nets : List (MNet α W)),
      m.subnetIter [] true = .ok nets ∧ Spec.Choice d S [] c ∧
      List.Forall₂ (fun F m' =>
        Spec.SubnetOf d z dir al S NL (fun u v => if ∃ p ∈ F, Spec.Ends dir p u v then R u v else z) c m') Fs nets ∧
      (∀ F ∈ Fs, ∀ p ∈ F, R p.1 p.2 ≠ z) ∧
      Fs.Pairwise (fun F F' => ¬ ∀ u v, (∃ p ∈ F, Spec.Ends dir p u v) ↔ ∃ p ∈ F', Spec.Ends dir p u v) := by
  obtain ⟨ps, e1, e2, hn, hps, hall, huniq⟩ := h.linkPairs
  obtain ⟨h1, h2, h3⟩ := choices_spec h.slices_length h.inv.r.snodup (fun a s hs => h.slice_mem hs) []
  have hlens : ∀ p ∈ ps, p.1.length = d + 1 ∧ p.2.length = d + 1 := fun p hp => ⟨(hps p hp).1, (hps p hp).2.1⟩
  have hone : iterChoices m.slices [] = [m.slices] := by
    unfold iterChoices
    have : ∀ (l : List (List α)), product (l.mapIdx fun a s => if a ∈ ([] : List Nat) then allNonzeroCombinations s else [s]) = [l] := by
      intro l
      simp only [List.not_mem_nil, if_false]
      induction l with
      | nil => rfl
      | cons s l ih => rw [List.mapIdx_cons]; simp [product, ih]
    exact this _
  have hc := h1 m.slices (by rw [hone]; simp)
  obtain ⟨nets, e3, hf⟩ := iterChoice_edges h hc e1 e2 hlens
  refine ⟨m.slices, allCombinations ps.length ps, nets, ?_, hc, ?_, ?_, ?_⟩
  · unfold MNet.subnetIter
    rw [hone]
    simp [View.collect, e3]
  · rw [MNet.forall₂_iff_getElem] at hf ⊢
    refine ⟨hf.1, fun i F m' hF hm' => hf.2 i F m' hF hm' fun p hp => ?_⟩
    have hp' := (mem_allCombinations.1 (List.mem_of_getElem? hF)).subset hp
    have := h.linked (hlens p hp').1 (hlens p hp').2 (hps p hp').2.2
    have win : ∀ nl, nl ∈ product m.slices → Spec.Within m.slices nl := by
      intro nl hnl a x s hx hs
      obtain ⟨s', hs', hxs⟩ := (mem_product_get.1 hnl).2 a x hx
      rw [hs] at hs'; cases hs'; exact hxs
    exact ⟨win _ this.1.1, win _ this.2.1, this.1.2, this.2.2⟩
  · intro F hF p hp
    exact (hps p ((mem_allCombinations.1 hF).subset hp)).2.2
  · refine List.Nodup.pairwise_of_forall_ne (nodup_allCombinations hn _) ?_
    intro F hF F' hF' hne hsame
    have s1 := mem_allCombinations.1 hF
    have s2 := mem_allCombinations.1 hF'
    refine hne (sublist_unique hn s1 s2 fun q => ⟨fun hq => ?_, fun hq => ?_⟩)
    · obtain ⟨p, hp, he⟩ := (hsame q.1 q.2).1 ⟨q, hq, .inl ⟨rfl, rfl⟩⟩
      rw [← huniq p (s2.subset hp) q (s1.subset hq) he]; exact hp
    · obtain ⟨p, hp, he⟩ := (hsame q.1 q.2).2 ⟨q, hq, .inl ⟨rfl, rfl⟩⟩
      rw [← huniq p (s1.subset hp) q (s2.subset hq) he]; exact hp

/-- **C112 is false when nodes are removed too.** One of the networks yielded for the removal of node 2 has the node 2 again (without
links), because the links are taken from the whole network and assigned the value "no link"; and it is yielded three times. The
network has two nodes and one link. -/
theorem C112_false : ∃ nets, (after 0 0 false true [.setItem [1, 2] (1 : Int)] : MNet Nat Int).subnetIter [0] true = .ok nets ∧
    nets.length = 6 ∧ nets[1]? = some (after 0 0 false true [.addNode 1 none, .addNode 2 none]) ∧
    nets[4]? = some (after 0 0 false true [.addNode 1 none, .addNode 2 none]) := ⟨_, rfl, by decide, by decide, by decide⟩

theorem mem_interAspects_ge (l : List α) (d k : Nat) (h : k ∈ MPlex.interAspects l d) : d ≤ k := by
  induction l, d using MPlex.interAspects.induct with
  | case1 d x y t hxy ih =>
    rw [MPlex.interAspects, if_pos hxy, List.mem_cons] at h
    rcases h with rfl | h
    · exact Nat.le_refl _
    · have := ih h; omega
  | case2 d x y t hxy ih =>
    rw [MPlex.interAspects, if_neg hxy] at h
    have := ih h; omega
  | case3 l d hl => rw [MPlex.interAspects.eq_2 _ _ hl] at h; cases h

/-- Internal: coupling links cannot be assigned. -/
theorem setItem_coupling [Zero W] (p : MPlex α W) (i : α) (rest : List α) (hl : (i :: i :: rest).length = 2 * (p.aspects + 1)) (w : W) :
    ∃ e, (p.setItem (i :: i :: rest) w).toExcept = .error e := by
  unfold MPlex.setItem
  simp only [hl, true_or, if_true]
  have hs : ∀ q : MPlex α W, (q.setLink (i :: i :: rest) w).2 = some .keyError := by
    intro q
    unfold MPlex.setLink
    simp only
    rw [if_neg]
    intro he
    have h0 : 0 ∈ MPlex.interAspects (i :: i :: rest) 0 := by rw [he]; simp
    rw [MPlex.interAspects, if_neg (by simp)] at h0
    have := mem_interAspects_ge _ _ _ h0
    omega
  have key : ∀ r : Outcome (MPlex α W), ∃ e, (r.andThen fun p => p.setLink (i :: i :: rest) w).toExcept = .error e := by
    intro r
    unfold Outcome.andThen Outcome.toExcept
    rcases r with ⟨q, _ | e⟩
    · exact ⟨.keyError, by simp only [hs]⟩
    · exact ⟨e, rfl⟩
  exact key _

theorem collect_error {β γ : Type} {f : β → Except Err (List γ)} {l : List β} {x : β} (hx : x ∈ l) {e : Err} (he : f x = .error e) :
    ∃ e', View.collect f l = .error e' := by
  induction l with
  | nil => cases hx
  | cons y l ih =>
    unfold View.collect
    cases hy : f y with
    | error e => exact ⟨e, rfl⟩
    | ok r =>
      rcases List.mem_cons.1 hx with rfl | hx
      · rw [he] at hy; cases hy
      · obtain ⟨e', h'⟩ := ih hx
        exact ⟨e', by simp [h']⟩

/-- **C112 is false for multiplex networks with couplings.** If a node is on two coupled layers of a node-aligned multiplex network,
`subnet_iter` with `remove_edges=True` raises an exception: the coupling links are among the links that are assigned. -/
theorem C112_false_multiplex [Zero W] [LawfulIntNames α] {cs : List (Coupling α W)} (dir : Bool) {ops : List (POp α W)}
    (hU : Spec.Usable cs true ops) (hs : Spec.NoIntraSelf ops) {i : α} {s t : List α} {w : W}
    (hu : Spec.HasNodeLayer cs.length true ops (i :: s)) (hv : Spec.HasNodeLayer cs.length true ops (i :: t))
    (hst : Spec.Coupled cs s t w) (remove : List Nat) :
    ∃ e, (afterP cs dir 0 true ops).subnetIter remove true = .error e := by
  have hcs := hU.some_aspect
  have hb := builtX_after cs dir 0 true ops
  have hpi := hb.pinv hcs
  have hpar := hb.params hcs
  have hlen : (afterP cs dir 0 true ops).slices.length = cs.length + 1 := by rw [hpi.core.slen, hpar.1]
  have hnet : ∀ c, .net c ∉ cs := by
    intro c hc
    obtain ⟨w, -, e | e⟩ := hU.kind _ hc <;> cases e
  unfold MPlex.subnetIter
  split
  swap
  · exact ⟨_, rfl⟩
  -- names of the node-layers
  have hget : ∀ {u : List α}, Spec.HasNodeLayer cs.length true ops u → u.length = cs.length + 1 ∧
      ∀ (a : Nat) x, u[a]? = some x → x ∈ (afterP cs dir 0 true ops).slices.getD a [] := by
    rintro u ⟨n, r, rfl, hr, ⟨-, h1, s', e, -, h2⟩ | ⟨h, -⟩⟩
    · have hsr : s' = r := (MNet.ofList_inj e).symm
      subst hsr
      refine ⟨by simp [hr], fun a x hx => ?_⟩
      rw [hb.mem_slices hcs (by have := (List.getElem?_eq_some_iff.1 hx).1; simp at this; omega)]
      cases a with
      | zero => cases hx; exact h1
      | succ a => rw [if_neg (by omega)]; exact h2 a x hx
    · cases h
  have hslice : ∀ (a : Nat) sl, (afterP cs dir 0 true ops).slices[a]? = some sl → sl ≠ [] := by
    intro a sl hsl
    have ha := (List.getElem?_eq_some_iff.1 hsl).1
    obtain ⟨k1, k2⟩ := hget hu
    have := k2 a _ (List.getElem?_eq_getElem (by omega))
    rw [List.getD_eq_getElem?_getD, hsl] at this
    exact List.ne_nil_of_mem this
  have hfull : (afterP cs dir 0 true ops).slices ∈ iterChoices (afterP cs dir 0 true ops).slices remove := by
    rw [mem_iterChoices]
    refine ⟨rfl, fun a s t h1 h2 => ?_⟩
    rw [h1] at h2; cases h2
    split
    · exact ⟨List.Sublist.refl _, hslice a s h1⟩
    · rfl
  suffices h : ∃ e, (afterP cs dir 0 true ops).iterChoice true (afterP cs dir 0 true ops).slices = .error e by
    obtain ⟨e, he⟩ := h
    exact collect_error hfull he
  obtain ⟨ops', e, hp⟩ := C84_subnet (z := 0) (dir := dir) hcs hnet (sel := (afterP cs dir 0 true ops).slices.map some) (al := true)
    (ops := ops) (by simp [hlen]) false (.inr (by
      rintro s ⟨hs, hk⟩
      refine ⟨s, rfl, hs, fun k x hx => ?_⟩
      rcases hk k x hx with ⟨l, hl, hxl⟩ | ⟨hl, -⟩
      · rw [List.getElem?_map, Option.map_eq_some_iff] at hl
        obtain ⟨l', hl, e⟩ := hl
        cases e
        have := hb.mem_slices hcs (a := k + 1) (by have := (List.getElem?_eq_some_iff.1 hl).1; omega) x
        rw [List.getD_eq_getElem?_getD, hl, if_neg (by omega)] at this
        exact this.1 hxl
      · rw [List.getElem?_map, Option.map_eq_some_iff] at hl
        obtain ⟨l', -, e⟩ := hl
        cases e))
  have hchosen : ∀ {u : List α}, Spec.HasNodeLayer cs.length true ops u → Spec.HasNodeLayer cs.length true ops' u := by
    intro u hu
    rw [hp.nodeLayers]
    refine ⟨hu, fun a x hx => ?_⟩
    obtain ⟨k1, k2⟩ := hget hu
    have ha : a < (afterP cs dir 0 true ops).slices.length := by have := (List.getElem?_eq_some_iff.1 hx).1; omega
    refine ⟨some (afterP cs dir 0 true ops).slices[a], by simp [ha], ?_⟩
    intro l hl
    cases hl
    have := k2 a x hx
    rwa [List.getD_eq_getElem?_getD, List.getElem?_eq_getElem ha] at this
  have hU' : Spec.Usable cs true ops' := by
    refine ⟨hcs, hU.kind, fun d w x hd hx => hU.ints d w x hd ?_⟩
    have hdl := (List.getElem?_eq_some_iff.1 hd).1
    exact ((hp.layers (d + 1) x (by omega) (by omega)).1 hx).1
  obtain ⟨es, e1, -, -, e4⟩ := main_edges (directed := dir) hU' (hp.noself hs) (.inl rfl)
  have hc := e4 _ _ (hchosen hu) (hchosen hv) ⟨w, .inr ⟨i, s, t, rfl, rfl, hst⟩⟩
  obtain ⟨edge, he, hedge⟩ : ∃ edge ∈ es, edge.1 = Spec.link (i :: s) (i :: t) ∨ (dir = false ∧ edge.1 = Spec.link (i :: t) (i :: s)) := by
    have : 0 < es.countP (fun e => e.1 = Spec.link (i :: s) (i :: t) ∨ (dir = false ∧ e.1 = Spec.link (i :: t) (i :: s))) := by omega
    obtain ⟨edge, h1, h2⟩ := List.countP_pos_iff.1 this
    exact ⟨edge, h1, by simpa using h2⟩
  obtain ⟨rest, hrest, hrl⟩ : ∃ rest, edge.1 = i :: i :: rest ∧ (i :: i :: rest).length = 2 * (cs.length + 1) := by
    have l1 := (hget hu).1
    have l2 := (hget hv).1
    rcases hedge with h | ⟨-, h⟩
    · rw [← interleave_eq_link] at h
      refine ⟨interleave s t, h, ?_⟩
      have := length_interleave (u := i :: s) (v := i :: t) (by omega)
      rw [show interleave (i :: s) (i :: t) = i :: i :: interleave s t from rfl] at this
      rw [this, l1]
    · rw [← interleave_eq_link] at h
      refine ⟨interleave t s, h, ?_⟩
      have := length_interleave (u := i :: t) (v := i :: s) (by omega)
      rw [show interleave (i :: t) (i :: s) = i :: i :: interleave t s from rfl] at this
      rw [this, l2]
  unfold MPlex.iterChoice
  simp only [e, if_true, e1]
  obtain ⟨ops2, e5, -⟩ := C84_subnet (z := 0) (dir := dir) hcs hnet (sel := (afterP cs dir 0 true ops).slices.map some) (al := true)
    (ops := ops') (by simp [hlen]) true (.inl rfl)
  have hstep : ∃ e, setFromP (afterP cs dir 0 true ops') (afterP cs dir 0 true ops2) edge = .error e := by
    unfold setFromP
    split
    · exact ⟨_, rfl⟩
    · split
      · exact ⟨_, rfl⟩
      · rw [hrest]
        exact setItem_coupling _ i rest (by rw [hrl, ((builtX_after cs dir 0 true ops2).params hcs).1]) _
  obtain ⟨er, her⟩ := hstep
  refine collect_error (x := [edge]) (mem_allCombinations.2 (List.singleton_sublist.2 he)) (e := er) ?_
  simp only [e5, forE, her]

example : ((MPlex.init [.categorical (1 : Int)] false 0 true).run exSubOps).subnetIter [] true = .error .keyError := by decide +kernel

end Pymnet
