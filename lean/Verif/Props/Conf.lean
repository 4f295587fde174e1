import Verif.Proofs.ConfReach

/-! Properties C73 to C76: the configuration model. -/

set_option linter.unusedSectionVars false

namespace Pymnet

open Py Models MPlex

variable {α W : Type} [DecidableEq α] [DecidableEq W] [LinearOrder α] [Zero W] [One W]

/-! ### C73: one layer -/

theorem conf_one_ends [NeZero (1 : W)] {ix : Nat → α} (hix : Function.Injective ix) {degs : Degs α}
    (hk : Spec.DistinctKeys degs) (c : Coupling α W) (rnd : α → ConfRandom α) :
    Ends (fun e => (e = .exception ∧ degs.isEmpty = true) ∨ (e = .assertionError ∧ (Spec.degreeSum degs % 2 ≠ 0 ∨
          Spec.nodeCount degs * (Spec.nodeCount degs - 1) < Spec.degreeSum degs)) ∨
        (e = .valueError ∧ Spec.degreeSum degs = 2))
      (conf ix (.one degs) c rnd) (fun x => ∃ m R, x = .mono m ∧ Spec.LooksMono m (Spec.nodesOf ix degs) R ∧
        Spec.Fulfils ix degs R) := by
  simp only [conf]
  by_cases he : degs.isEmpty = true
  · rw [if_pos he]; exact .inl ⟨rfl, he⟩
  rw [if_neg he]
  have := singleLayerConf_ends fills_net hix (W := W) BuiltM.init hk (rnd (ix 0))
  split
  · rename_i e hr
    rw [hr] at this
    cases e with
    | more => trivial
    | raised e => exact .inr this
  · rename_i m hr
    rw [hr] at this
    obtain ⟨R, h1, h2⟩ := this
    exact ⟨m, R, rfl, h1.looks, h2⟩

/-- **C73.** Whatever the random outcomes: if `conf` returns for the degrees of one layer, it returns a simple network with
exactly the given nodes, in which every node has exactly the given degree (or, for a distribution, for each degree exactly
the given number of nodes has it). -/
theorem C73_conf [NeZero (1 : W)] {ix : Nat → α} (hix : Function.Injective ix) {degs : Degs α}
    (hk : Spec.DistinctKeys degs) (c : Coupling α W) (rnd : α → ConfRandom α) {x : Either α W}
    (h : conf ix (.one degs) c rnd = .ok x) :
    ∃ m R, x = .mono m ∧ Spec.LooksMono m (Spec.nodesOf ix degs) R ∧ Spec.Fulfils ix degs R :=
  (conf_one_ends hix hk c rnd).ok h

/-- **C73**, exceptions: only for an empty dictionary, a sum of degrees that is odd or too large, or the sum 2. -/
theorem C73_errors [NeZero (1 : W)] {ix : Nat → α} (hix : Function.Injective ix) {degs : Degs α}
    (hk : Spec.DistinctKeys degs) (c : Coupling α W) (rnd : α → ConfRandom α) {e : Err}
    (h : conf ix (.one degs) c rnd = .error (.raised e)) :
    (e = .exception ∧ degs.isEmpty = true) ∨
    (e = .assertionError ∧ (Spec.degreeSum degs % 2 ≠ 0 ∨
      Spec.nodeCount degs * (Spec.nodeCount degs - 1) < Spec.degreeSum degs)) ∨
    (e = .valueError ∧ Spec.degreeSum degs = 2) :=
  (conf_one_ends hix hk c rnd).err h

/-- **C73**, refusals: an odd sum of degrees, or one that is larger than `n(n-1)`, always raises `AssertionError`. -/
theorem C73_refuses (ix : Nat → α) {degs : Degs α} (hne : degs.isEmpty = false) (c : Coupling α W) (rnd : α → ConfRandom α)
    (hs : ∀ d, degs = .dist d → (rnd (ix 0)).nodeShuffle.Perm (List.range (Spec.nodeCount degs)))
    (h : Spec.degreeSum degs % 2 ≠ 0 ∨ Spec.nodeCount degs * (Spec.nodeCount degs - 1) < Spec.degreeSum degs) :
    conf ix (.one degs) c rnd = .error (.raised .assertionError) := by
  have hc : ∀ {stubs : List α} {m : MNet α W}, confStubs netTarget (Spec.degreeSum degs) (Spec.nodeCount degs) stubs
      (rnd (ix 0)) m = .error (.raised .assertionError) := by
    intro stubs m
    unfold confStubs
    rcases h with h | h
    · rw [if_pos h]
    · by_cases h1 : Spec.degreeSum degs % 2 ≠ 0
      · rw [if_pos h1]
      · rw [if_neg h1, if_pos (by omega)]
  simp only [conf, hne, Bool.false_eq_true, if_false]
  cases degs with
  | nodes d =>
    obtain ⟨s1, e1, -⟩ := stubsNodes_ok fills_net (BuiltM.init (α := α) (W := W)) d
    simp only [singleLayerConf, e1]
    have := hc (stubs := stubsOf d) (m := s1)
    simp only [Spec.degreeSum, Spec.nodeCount] at this
    rw [this]
  | dist d =>
    have hp := hs d rfl
    simp only [Spec.nodeCount] at hp
    obtain ⟨st, e1, -⟩ := stubsDist_ok fills_net (ix := ix) (BuiltM.init (α := α) (W := W)) d
      (indices := (rnd (ix 0)).nodeShuffle) (by rw [hp.length_eq]; simp)
    simp only [singleLayerConf, hp, not_true, if_false, e1]
    have := hc (stubs := st.1.2) (m := st.1.1)
    simp only [Spec.degreeSum, Spec.nodeCount] at this
    rw [this]

/-- **C73**, completeness: every simple network with the given degrees is the result for some random outcomes. -/
theorem C73_reaches [NeZero (1 : W)] (ix : Nat → α) {d : Dict α Nat} (hne : d ≠ []) (hn : (d.map Prod.fst).Nodup)
    (c : Coupling α W) {R : α → α → W} (hR : Spec.HasDegrees R fun x => (Dict.get d x).getD 0) :
    ∃ rnd m, conf ix (.one (.nodes d)) c rnd = .ok (.mono m) ∧ Spec.LooksMono m (· ∈ d.map Prod.fst) R := by
  obtain ⟨rnd, m, h1, h2⟩ := singleLayerConf_reaches fills_net ix (BuiltM.init (α := α) (W := W)) hn hR
  refine ⟨fun _ => rnd, m, ?_, h2.looks⟩
  have : (Degs.nodes d).isEmpty = false := by
    cases d with
    | nil => exact absurd rfl hne
    | cons x t => rfl
  simp only [conf, this, Bool.false_eq_true, if_false, h1]

/-- the shuffled stubs are 0-0, 1-2, 3-4, 2-3, 1-4, so a self-link is replaced -/
private def cycleRnd : ConfRandom Int := ⟨[], [0, 0, 1, 2, 3, 4, 2, 3, 1, 4], [], [(3, 2), (1, 2)], []⟩

private def okMono (x : Except Stop (Either Int Int)) : Bool :=
  match x with
  | .ok (.mono _) => true
  | _ => false

private def raises (x : Except Stop (Either Int Int)) : Option Err :=
  match x with
  | .error (.raised e) => some e
  | _ => none

-- five nodes of degree 2: a self-link is repaired, and the first draw is rejected
example : okMono (conf (fun i : Nat => (i : Int)) (.one (.nodes [(0, 2), (1, 2), (2, 2), (3, 2), (4, 2)])) (.categorical 1)
    fun _ => cycleRnd) = true := by decide +kernel
-- a multiple link is repaired
example : okMono (conf (fun i : Nat => (i : Int)) (.one (.nodes [(0, 2), (1, 2), (2, 1), (3, 1), (4, 1), (5, 1), (6, 0)]))
    (.categorical 1) fun _ => ⟨[], [0, 1, 2, 3, 1, 0, 4, 5], [(0, 1)], [(1, 3)], []⟩) = true := by decide +kernel
-- a distribution
example : okMono (conf (fun i : Nat => (i : Int)) (.one (.dist [(1, 2), (0, 1)])) (.categorical 1)
    fun _ => ⟨[2, 0, 1], [0, 2], [], [], []⟩) = true := by decide +kernel
-- the exceptions
example : raises (conf (fun i : Nat => (i : Int)) (.one (.nodes [(0, 2), (1, 0)])) (.categorical 1)
    (fun _ => ⟨[], [0, 0], [], [], []⟩)) = some .valueError := by decide +kernel
example : raises (conf (fun i : Nat => (i : Int)) (.one (.nodes [(0, 2), (1, 2)])) (.categorical 1)
    (fun _ => ⟨[], [0, 1, 1, 0], [], [], []⟩)) = some .assertionError := by decide +kernel

/-- a triangle -/
example : Spec.HasDegrees (fun a b : Int => if a ≠ b ∧ a ∈ [0, 1, 2] ∧ b ∈ [0, 1, 2] then (1 : Int) else 0)
    fun x => (Dict.get ([(0, 2), (1, 2), (2, 2)] : Dict Int Nat) x).getD 0 := by
  refine ⟨fun a b => by split <;> simp, fun a b => ?_, fun a => by simp, fun a => ?_⟩
  · have : (a ≠ b ∧ a ∈ [0, 1, 2] ∧ b ∈ [0, 1, 2]) ↔ (b ≠ a ∧ b ∈ [0, 1, 2] ∧ a ∈ [0, 1, 2]) :=
      ⟨fun h => ⟨h.1.symm, h.2.2, h.2.1⟩, fun h => ⟨h.1.symm, h.2.2, h.2.1⟩⟩
    simp only [this]
  · by_cases ha : a ∈ ([0, 1, 2] : List Int)
    · refine ⟨[0, 1, 2].erase a, List.Nodup.erase _ (by decide), fun b => ?_, ?_⟩
      · rw [List.Nodup.mem_erase_iff (by decide)]
        simp only [ne_eq, ha, true_and]
        constructor
        · intro h; rw [if_pos ⟨fun e => h.1 e.symm, h.2⟩]
        · intro h; split at h
          · rename_i h'; exact ⟨fun e => h'.1 e.symm, h'.2⟩
          · cases h
      · fin_cases ha <;> decide
    · refine ⟨[], by simp, fun b => by simp [ha], ?_⟩
      simp only [List.mem_cons, not_or] at ha
      rw [Dict.get_eq_none.2 (by simpa [Dict.keys] using ha)]; rfl

/-! ### C74: several layers -/

/-- **C74.** `conf` of a dictionary of layers: a multiplex network with these layers and the given coupling; each layer has
exactly the given nodes and is a simple network with the given degrees. The network is node-aligned exactly if all layers
have the same nodes. -/
theorem C74_named [NeZero (1 : W)] [IntNames α] {ix : Nat → α} (hix : Function.Injective ix) {l : Dict α (Degs α)}
    (hl : (l.map Prod.fst).Nodup) (hk : ∀ x ∈ l, Spec.DistinctKeys x.2) (hs : Spec.SameKind (l.map Prod.snd))
    (c : Coupling α W) (rnd : α → ConfRandom α) {x : Either α W} (h : conf ix (.named l) c rnd = .ok x) :
    ∃ p al R, x = .plex p ∧ (al = true ↔ ∀ y ∈ l, ∀ y' ∈ l, ∀ n, Spec.nodesOf ix y.2 n ↔ Spec.nodesOf ix y'.2 n) ∧
      Spec.LooksPlex p c al (fun n => ∃ y ∈ l, Spec.nodesOf ix y.2 n) (fun s => ∃ y ∈ l, s = y.1)
        (fun n s => ∃ y ∈ l, s = y.1 ∧ Spec.nodesOf ix y.2 n) R ∧
      ∀ y ∈ l, Spec.Fulfils ix y.2 (R y.1) := by
  simp only [conf] at h
  split at h
  · cases h
  split at h
  · cases h
  · rename_i p hp
    cases h
    obtain ⟨al, R, h1, h2, h3⟩ := (confPlex_ends hix hl hk hs).ok hp
    exact ⟨p, al, R, rfl, h1, h2, h3⟩

/-- the layers of a list -/
theorem mem_zip_range {ix : Nat → α} {l : List (Degs α)} {y : α × Degs α} :
    y ∈ ((List.range l.length).map ix).zip l ↔ ∃ i, l[i]? = some y.2 ∧ y.1 = ix i := by
  rw [List.mem_iff_getElem?]
  refine exists_congr fun i => ?_
  rw [List.getElem?_zip_eq_some, List.getElem?_map]
  simp only [Option.map_eq_some_iff]
  constructor
  · rintro ⟨⟨j, hj, e⟩, h2⟩
    rw [List.getElem?_eq_some_iff] at hj
    obtain ⟨hj1, hj2⟩ := hj
    simp at hj2; subst hj2
    exact ⟨h2, e.symm⟩
  · rintro ⟨h1, h2⟩
    refine ⟨⟨i, ?_, h2.symm⟩, h1⟩
    have := (List.getElem?_eq_some_iff.1 h1).1
    simp [this]

theorem zip_range_fst (ix : Nat → α) (l : List (Degs α)) :
    (((List.range l.length).map ix).zip l).map Prod.fst = (List.range l.length).map ix := by
  rw [List.map_fst_zip]; simp

theorem zip_range_snd (ix : Nat → α) (l : List (Degs α)) : (((List.range l.length).map ix).zip l).map Prod.snd = l := by
  rw [List.map_snd_zip]; simp

/-- **C74.** `conf` of a list: the layers are named by their position. -/
theorem C74_list [NeZero (1 : W)] [IntNames α] {ix : Nat → α} (hix : Function.Injective ix) {l : List (Degs α)}
    (hk : ∀ d ∈ l, Spec.DistinctKeys d) (hs : Spec.SameKind l)
    (c : Coupling α W) (rnd : α → ConfRandom α) {x : Either α W} (h : conf ix (.list l) c rnd = .ok x) :
    ∃ p al R, x = .plex p ∧ (al = true ↔ ∀ d ∈ l, ∀ d' ∈ l, ∀ n, Spec.nodesOf ix d n ↔ Spec.nodesOf ix d' n) ∧
      Spec.LooksPlex p c al (fun n => ∃ d ∈ l, Spec.nodesOf ix d n) (fun s => ∃ i < l.length, s = ix i)
        (fun n s => ∃ (i : Nat) (d : Degs α), l[i]? = some d ∧ s = ix i ∧ Spec.nodesOf ix d n) R ∧
      ∀ (i : Nat) (d : Degs α), l[i]? = some d → Spec.Fulfils ix d (R (ix i)) := by
  simp only [conf] at h
  split at h
  · cases h
  · rename_i p hp
    cases h
    rw [← zip_range_snd ix l] at hs hp
    rw [zip_range_snd ix l] at hp
    have hm : ∀ y ∈ ((List.range l.length).map ix).zip l, y.2 ∈ l := fun y hy => (List.of_mem_zip (a := y.1) (b := y.2) hy).2
    have hr : confLayers ix rnd (((List.range l.length).map ix).zip l)
        (MPlex.init [c] false 0 (nodeAligned ((((List.range l.length).map ix).zip l).map Prod.snd))) = .ok p := by
      rw [zip_range_snd ix l]; exact hp
    obtain ⟨al, R, h1, h2, h3⟩ := (confPlex_ends hix
      (by rw [zip_range_fst]; exact List.nodup_range.map hix) (fun y hy => hk _ (hm y hy)) hs).ok hr
    have hex : ∀ d ∈ l, ∃ y ∈ ((List.range l.length).map ix).zip l, y.2 = d := by
      intro d hd
      obtain ⟨i, hi, rfl⟩ := List.getElem_of_mem hd
      exact ⟨(ix i, l[i]), mem_zip_range.2 ⟨i, List.getElem?_eq_getElem hi, rfl⟩, rfl⟩
    refine ⟨p, al, R, rfl, h1.trans ⟨fun h d hd d' hd' => ?_, fun h y hy y' hy' => h _ (hm y hy) _ (hm y' hy')⟩, ?_, ?_⟩
    · obtain ⟨y, hy, rfl⟩ := hex d hd
      obtain ⟨y', hy', rfl⟩ := hex d' hd'
      exact h y hy y' hy'
    · have e1 : (fun n => ∃ y ∈ ((List.range l.length).map ix).zip l, Spec.nodesOf ix y.2 n) =
          fun n => ∃ d ∈ l, Spec.nodesOf ix d n := by
        funext n
        refine propext ⟨fun ⟨y, hy, h⟩ => ⟨y.2, hm y hy, h⟩, fun ⟨d, hd, h⟩ => ?_⟩
        obtain ⟨y, hy, rfl⟩ := hex d hd
        exact ⟨y, hy, h⟩
      have e2 : (fun s => ∃ y ∈ ((List.range l.length).map ix).zip l, s = y.1) = fun s => ∃ i < l.length, s = ix i := by
        funext s
        refine propext ⟨fun ⟨y, hy, h⟩ => ?_, fun ⟨i, hi, h⟩ => ?_⟩
        · obtain ⟨i, h1, h2⟩ := mem_zip_range.1 hy
          exact ⟨i, (List.getElem?_eq_some_iff.1 h1).1, h.trans h2⟩
        · exact ⟨(ix i, l[i]), mem_zip_range.2 ⟨i, List.getElem?_eq_getElem hi, rfl⟩, h⟩
      have e3 : (fun n s => ∃ y ∈ ((List.range l.length).map ix).zip l, s = y.1 ∧ Spec.nodesOf ix y.2 n) =
          fun n s => ∃ (i : Nat) (d : Degs α), l[i]? = some d ∧ s = ix i ∧ Spec.nodesOf ix d n := by
        funext n s
        refine propext ⟨fun ⟨y, hy, h, h'⟩ => ?_, fun ⟨i, d, h1, h2, h3⟩ => ?_⟩
        · obtain ⟨i, h1, h2⟩ := mem_zip_range.1 hy
          exact ⟨i, y.2, h1, h.trans h2, h'⟩
        · exact ⟨(ix i, d), mem_zip_range.2 ⟨i, h1, rfl⟩, h2, h3⟩
      rw [← e1, ← e2, ← e3]; exact h2
    · intro i d hi
      exact h3 (ix i, d) (mem_zip_range.2 ⟨i, hi, rfl⟩)

/-- **C74**, exceptions: one of the layers has degrees for which C73 allows the exception, or the dictionary is empty. -/
theorem C74_errors [NeZero (1 : W)] {ix : Nat → α} (hix : Function.Injective ix) {l : Dict α (Degs α)}
    (hl : (l.map Prod.fst).Nodup) (hk : ∀ x ∈ l, Spec.DistinctKeys x.2)
    (c : Coupling α W) (rnd : α → ConfRandom α) {e : Err} (h : conf ix (.named l) c rnd = .error (.raised e)) :
    (e = .exception ∧ l = []) ∨ ∃ y ∈ l, (e = .assertionError ∧ (Spec.degreeSum y.2 % 2 ≠ 0 ∨
        Spec.nodeCount y.2 * (Spec.nodeCount y.2 - 1) < Spec.degreeSum y.2)) ∨
      (e = .valueError ∧ Spec.degreeSum y.2 = 2) := by
  simp only [conf] at h
  split at h
  · rename_i he
    cases h
    exact .inl ⟨rfl, List.isEmpty_iff.1 he⟩
  split at h
  · rename_i e' hp
    cases h
    exact .inr ((confLayers_ends hix hl hk).err hp)
  · cases h

private def okPlex (x : Except Stop (Either Int Int)) : Bool :=
  match x with
  | .ok (.plex p) => p.fic
  | _ => false

private def pathDegs : Degs Int := .nodes [(0, 1), (1, 2), (2, 1)]

example : Spec.SameKind [pathDegs, pathDegs] := .inl fun d hd => ⟨[(0, 1), (1, 2), (2, 1)], by
  simp only [List.mem_cons, List.not_mem_nil, or_false, or_self] at hd; rw [hd]; rfl⟩
example : okPlex (conf (fun i : Nat => (i : Int)) (.list [pathDegs, pathDegs]) (.ordinal 2)
    fun _ => ⟨[], [0, 1, 1, 2], [], [], []⟩) = true := by decide +kernel
-- different nodes: not node-aligned
example : (conf (fun i : Nat => (i : Int)) (.named [(7, pathDegs), (8, .nodes [(5, 0)])]) (.categorical (1 : Int))
    fun s => if s = 7 then ⟨[], [0, 1, 1, 2], [], [], []⟩ else ⟨[], [], [], [], []⟩) matches .ok (.plex ⟨_, _, _, false, _, _, _, _⟩) := by
  decide +kernel

/-! ### C75: the repairs may be impossible -/

/-- **C75_partial.** If the shuffled stubs are, in pairs, the links `E` of a simple network with the given degrees, the call
returns exactly this network. (For other orders of the stubs see the negation below.) -/
theorem C75_returns_partial [NeZero (1 : W)] (ix : Nat → α) {d : Dict α Nat} (hne : d ≠ []) (hn : (d.map Prod.fst).Nodup)
    (c : Coupling α W) {E : List (α × α)} (hroom : (d.map Prod.snd).sum ≤ List.length d * (List.length d - 1))
    (hE : ∀ a, (E.flatMap fun p => [p.1, p.2]).count a = (Dict.get d a).getD 0)
    (hd : ∀ p ∈ E, p.1 ≠ p.2) (h1 : E.Nodup) (h2 : ∀ a b, (a, b) ∈ E → (b, a) ∉ E) :
    ∃ m, conf ix (.one (.nodes d)) c (fun _ => ⟨[], E.flatMap fun p => [p.1, p.2], [], [], []⟩) = .ok (.mono m) ∧
      Spec.LooksMono m (· ∈ d.map Prod.fst) (fun a b => if (a, b) ∈ E ∨ (b, a) ∈ E then (1 : W) else 0) := by
  have hperm : (flatE E).Perm (stubsOf d) := List.perm_iff_count.2 fun a => by rw [count_stubsOf hn]; exact hE a
  have hlen : (stubsOf d).length = (d.map Prod.snd).sum := length_stubsOf d
  have hflat : (d.map Prod.snd).sum = 2 * E.length := by rw [← hlen, ← hperm.length_eq, length_flatE]
  obtain ⟨s1, e1, i1⟩ := stubsNodes_ok fills_net (BuiltM.init (α := α) (W := W)) d
  have hmap : (E.map key).Nodup := by
    refine h1.map_on fun p hp q hq e => ?_
    rcases key_ends (a := q.1) (b := q.2) |>.1 e with ⟨a, b⟩ | ⟨a, b⟩
    · exact Prod.ext a b
    · exact absurd (show (q.2, q.1) ∈ E by rw [← a, ← b]; exact hp) (h2 q.1 q.2 hq)
  obtain ⟨net, e2, i2⟩ := confStubs_returns fills_net (stubs := stubsOf d) (zeros := zerosOf d) (nodes := List.length d)
    ⟨_, _, i1, ⟨fun _ _ h => h.elim, fun _ _ _ => rfl⟩, fun _ _ h => h.elim, fun a ha => .inr ha, fun a ha => ha⟩ hlen
    (by omega) hroom hperm (fun q => by
      rw [toPairs_flatE, cnt_eq_count]; exact List.nodup_iff_count_le_one.1 hmap q) (by rw [toPairs_flatE]; exact hd) []
  have hE' : (Degs.nodes d).isEmpty = false := by
    cases d with
    | nil => exact absurd rfl hne
    | cons x t => rfl
  refine ⟨net, ?_, ?_⟩
  · simp only [conf, hE', Bool.false_eq_true, if_false, singleLayerConf, e1]
    rw [show (E.flatMap fun p => [p.1, p.2]) = flatE E from rfl, e2]
  · rw [toPairs_flatE] at i2
    obtain ⟨S, R', h3, h4, h5, h6, h7⟩ := i2
    have hlk : ∀ a b, 0 < cnt (srt a b) E ↔ (a, b) ∈ E ∨ (b, a) ∈ E := by
      intro a b
      rw [cnt_pos]
      constructor
      · rintro ⟨p, hp, hk⟩
        rcases key_ends.1 hk with ⟨x, y⟩ | ⟨x, y⟩
        · exact .inl (by rw [← x, ← y]; exact hp)
        · exact .inr (by rw [← x, ← y]; exact hp)
      · rintro (h | h)
        · exact ⟨_, h, rfl⟩
        · exact ⟨_, h, srt_comm b a⟩
    refine (fills_net.congr h3 (fun a => ?_) (fun a b => ?_)).looks
    · rw [← mem_stubs_zeros]
      constructor
      · exact h6 a
      · rintro (ha | ha)
        · have : a ∈ flatE E := hperm.mem_iff.2 ha
          simp only [flatE, List.mem_flatMap, List.mem_cons, List.not_mem_nil, or_false] at this
          obtain ⟨p, hp, rfl | rfl⟩ := this
          · exact h5 p.1 p.2 ((hlk _ _).2 (.inl hp))
          · exact h5 p.2 p.1 ((hlk _ _).2 (.inr hp))
        · exact h7 a ha
    · by_cases hl : 0 < cnt (srt a b) E
      · rw [h4.1 a b hl, if_pos ((hlk a b).1 hl)]
      · rw [h4.2 a b hl, if_neg fun e => hl ((hlk a b).2 e)]

theorem retry_nodup {σ τ : Type} {pairs : List (α × α)} {body : Nat × Nat → α × α → α × α → Except Err (Option τ)}
    {names : List α} {node : α} (hnode : node ∈ names) (hlen : names.length ≤ 4)
    (hp : ∀ p ∈ pairs, p.1 ∈ names ∧ p.2 ∈ names)
    (hb : ∀ e p1 p2 t, body e p1 p2 = .ok (some t) → [node, p1.1, p1.2, p2.1, p2.2].Nodup) :
    ∀ draws r, retry pairs body draws ≠ .ok r
  | [], r, h => by
    unfold retry at h; split at h <;> cases h
  | e :: draws, r, h => by
    unfold retry at h
    split at h
    · cases h
    split at h
    · cases h
    split at h
    · rename_i p1 p2 h1 h2
      split at h
      · cases h
      · rename_i t ht
        have hnd := hb _ _ _ _ ht
        have m1 := hp _ (List.mem_of_getElem? h1)
        have m2 := hp _ (List.mem_of_getElem? h2)
        have hsub : ∀ x ∈ [node, p1.1, p1.2, p2.1, p2.2], x ∈ names := by
          intro x hx
          simp only [List.mem_cons, List.not_mem_nil, or_false] at hx
          rcases hx with rfl | rfl | rfl | rfl | rfl
          exacts [hnode, m1.1, m1.2, m2.1, m2.2]
        have := (List.subperm_of_subset hnd hsub).length_le
        simp at this; omega
      · exact retry_nodup (σ := σ) hnode hlen hp hb draws r h
    · cases h

/-- **C75 is false**, in general: with at most four nodes, a self-link among the shuffled stubs can never be repaired (the
code looks for two links with four more nodes), so no sequence of draws makes the call return. -/
theorem C75_false_small [NeZero (1 : W)] (ix : Nat → α) {d : Dict α Nat} (hn : (d.map Prod.fst).Nodup)
    (hlen : List.length d ≤ 4) (c : Coupling α W) (rnd : α → ConfRandom α) {i : Nat} {a : α}
    (h1 : (rnd (ix 0)).shuffle[2 * i]? = some a) (h2 : (rnd (ix 0)).shuffle[2 * i + 1]? = some a) (x : Either α W) :
    conf ix (.one (.nodes d)) c rnd ≠ .ok x := by
  intro h
  simp only [conf] at h
  split at h
  · cases h
  split at h
  · cases h
  rename_i m hm
  obtain ⟨s1, e1, i1⟩ := stubsNodes_ok fills_net (BuiltM.init (α := α) (W := W)) d
  simp only [singleLayerConf, e1] at hm
  unfold confStubs at hm
  split at hm
  · cases hm
  split at hm
  · cases hm
  split at hm
  · cases hm
  rename_i hperm
  simp only [not_not] at hperm
  have hmem : ∀ p ∈ toPairs (rnd (ix 0)).shuffle, p.1 ∈ stubsOf d ∧ p.2 ∈ stubsOf d := fun p hp => by
    have := mem_toPairs _ p hp
    exact ⟨hperm.mem_iff.1 this.1, hperm.mem_iff.1 this.2⟩
  obtain ⟨f, e2, hf⟩ := confLinks_ok fills_net (stubs := stubsOf d) (zeros := zerosOf d)
    ⟨_, _, i1, ⟨fun _ _ h => h.elim, fun _ _ _ => rfl⟩, fun _ _ h => h.elim, fun a ha => .inr ha, fun a ha => ha⟩ hmem
  simp only [e2] at hm
  split at hm
  · cases hm
  rename_i w hw
  -- the self-link
  have hpair : ∀ (l : List α) (i : Nat), l[2 * i]? = some a → l[2 * i + 1]? = some a → (toPairs l)[i]? = some (a, a) := by
    intro l
    induction l using toPairs.induct with
    | case1 x y t ih =>
      intro i h1 h2
      cases i with
      | zero => simp at h1 h2; subst h1; subst h2; simp [toPairs]
      | succ i =>
        have e : 2 * (i + 1) = 2 * i + 1 + 1 := by ring
        rw [e] at h1 h2
        simp only [List.getElem?_cons_succ] at h1 h2
        simpa [toPairs] using ih i h1 h2
    | case2 l hl =>
      intro i h1 h2
      match l, hl with
      | [], _ => simp at h1
      | [y], _ => simp at h2
      | y :: z :: t, hl => exact absurd rfl (hl y z t)
  have hpos := hpair _ i h1 h2
  have hin : i ∈ (Dict.get f.eti (a, a)).getD [] := ((hf.eti (a, a)).2 i).2 ⟨(a, a), hpos, by simp [key, srt]⟩
  rw [← hf.selfs a] at hin
  cases hg : Dict.get f.selfs a with
  | none => rw [hg] at hin; simp at hin
  | some is =>
    rw [hg] at hin
    simp only [Option.getD_some] at hin
    have hsel : (a, is) ∈ f.selfs := Dict.mem_of_get hg
    have hnames : ∀ {y}, y ∈ stubsOf d → y ∈ d.map Prod.fst := fun hy => mem_stubs_zeros.1 (.inl hy)
    have ha : a ∈ d.map Prod.fst := hnames (hmem _ (List.mem_of_getElem? hpos)).1
    have hkeys : ∀ y ∈ f.selfs, y.2 ≠ [] → y.1 ∈ d.map Prod.fst := by
      rintro ⟨y, l⟩ hy hl
      obtain ⟨j, hj⟩ := List.exists_mem_of_ne_nil _ hl
      have hs := hf.selfs y
      rw [Dict.get_of_mem hf.keys hy] at hs
      simp only [Option.getD_some] at hs
      rw [show (y, l).2 = l from rfl, hs] at hj
      obtain ⟨p, hp, hk⟩ := ((hf.eti (y, y)).2 j).1 hj
      have := (hmem p (List.mem_of_getElem? hp)).1
      rcases key_ends (a := y) (b := y) |>.1 (by rw [hk]; simp [srt]) with ⟨e, -⟩ | ⟨e, -⟩ <;>
        (rw [e] at this; exact hnames this)
    have hno : ∀ (w : Work (MNet α W) α) (node : α) (si : Nat) w', node ∈ d.map Prod.fst →
        (∀ p ∈ w.pairs, p.1 ∈ d.map Prod.fst ∧ p.2 ∈ d.map Prod.fst) →
        confSelf netTarget f.multi node w si ≠ .ok w' := by
      intro w node si w' hnode hp hc
      unfold confSelf at hc
      split at hc
      · cases hc
      · rename_i r draws hr
        refine retry_nodup (σ := Unit) hnode (by simpa using hlen) hp (fun e p1 p2 t ht => ?_) _ _ hr
        unfold confSelfTry at ht
        simp only at ht
        split at ht
        · rename_i hc2; exact hc2.1
        · cases ht
    have := forS_ok (P := fun pre (w : Work (MNet α W) α) => w.pairs = toPairs (rnd (ix 0)).shuffle ∧ ∀ y ∈ pre, y.2 = [])
      f.selfs ⟨rfl, by simp⟩ (by
        rintro pre ⟨y, l⟩ post w w' hl ⟨hw1, hw2⟩ hst
        cases l with
        | nil =>
          cases hst
          refine ⟨hw1, fun z hz => ?_⟩
          rcases List.mem_append.1 hz with hz | hz
          · exact hw2 z hz
          · cases List.mem_singleton.1 hz; rfl
        | cons si t =>
          exfalso
          have hy : (y, si :: t) ∈ f.selfs := by rw [hl]; simp
          simp only [forS] at hst
          split at hst
          · cases hst
          · rename_i w1 hw1'
            exact hno w y si w1 (hkeys _ hy (by simp)) (by
              rw [hw1]; exact fun p hp => ⟨hnames (hmem p hp).1, hnames (hmem p hp).2⟩) hw1') hw
    have hnil : is = [] := this.2 _ hsel
    simp [hnil] at hin

/-- **C75 is false.** The triangle has the degrees 2, 2, 2; if the shuffled stubs are 0, 0, 1, 1, 2, 2 the call never returns:
whatever is drawn, it goes on drawing. -/
theorem C75_false_triangle (order : List (Int × Int)) (draws : List (Nat × Nat)) (x : Either Int Int) :
    conf (fun i : Nat => (i : Int)) (.one (.nodes [(0, 2), (1, 2), (2, 2)])) (.categorical 1)
      (fun _ => ⟨[], [0, 0, 1, 1, 2, 2], order, draws, []⟩) ≠ .ok x :=
  C75_false_small _ (by decide) (by decide) _ _ (i := 0) (a := 0) rfl rfl x

example : okMono (conf (fun i : Nat => (i : Int)) (.one (.nodes [(0, 2), (1, 2), (2, 2)])) (.categorical 1)
    fun _ => ⟨[], [0, 1, 1, 2, 2, 0], [], [], []⟩) = true := by decide +kernel
example : ∀ a : Int, (([(0, 1), (1, 2)] : List (Int × Int)).flatMap fun p => [p.1, p.2]).count a =
    (Dict.get ([(0, 1), (1, 2), (2, 1)] : Dict Int Nat) a).getD 0 := by
  intro a
  simp only [List.flatMap_cons, List.flatMap_nil, List.cons_append, List.nil_append, List.append_nil, List.count_cons,
    List.count_nil, Dict.get_cons, beq_iff_eq]
  by_cases h0 : (0 : Int) = a
  · subst h0; decide
  · by_cases h1 : (1 : Int) = a
    · subst h1; decide
    · by_cases h2 : (2 : Int) = a
      · subst h2; decide
      · simp [h0, h1, h2]

end Pymnet
