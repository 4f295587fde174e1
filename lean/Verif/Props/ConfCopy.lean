import Verif.Props.Conf
import Verif.Proofs.Diagnostics

/-! Property C76: the configuration model of a given network. -/

set_option linter.unusedSectionVars false

namespace Pymnet

open Py Models MPlex

variable {α W : Type} [DecidableEq α] [DecidableEq W] [LinearOrder α] [Zero W] [One W]

theorem mem_fst_set {κ ν : Type} [DecidableEq κ] (d : Dict κ ν) (k : κ) (v : ν) (x : κ) :
    x ∈ (Dict.set d k v).map Prod.fst ↔ x ∈ d.map Prod.fst ∨ x = k := by
  have h1 : x ∈ (Dict.set d k v).map Prod.fst ↔ _ := Dict.mem_keys
  have h2 : x ∈ d.map Prod.fst ↔ _ := Dict.mem_keys
  rw [h1, h2, Dict.get_set]
  by_cases h : k = x
  · simp [h]
  · have h' : ¬ x = k := fun e => h e.symm
    simp [h, h']

/-- the degrees that are read -/
theorem degsOf_ok {m : MNet α W} (ha : m.aspects = 0) (hd : m.directed = false) :
    ∃ d : Dict α Nat, degsOf m.view = .ok d ∧ (d.map Prod.fst).Nodup ∧ (∀ x, x ∈ d.map Prod.fst ↔ x ∈ m.iterNodes none) ∧
      ∀ x ∈ m.iterNodes none, m.view.itemDeg [x] = .ok ((Dict.get d x).getD 0 : Int) := by
  have hi : ∀ x, m.view.itemDeg [x] = .ok ((m.degOut [x] none : Nat) : Int) := by
    intro x
    rw [View.itemDeg_eq (by show 1 = m.aspects + 1; omega)]
    simp [MNet.view, MNet.deg, hd]
  obtain ⟨d, h1, h2, h3, h4⟩ := forE_ok (P := fun pre (d : Dict α Nat) => (d.map Prod.fst).Nodup ∧
      (∀ x, x ∈ d.map Prod.fst ↔ x ∈ pre) ∧ ∀ x ∈ pre, Dict.get d x = some (m.degOut [x] none))
    (f := fun (d : Dict α Nat) n =>
      match m.view.itemDeg [n] with
      | .error e => .error e
      | .ok k => .ok (Dict.set d n k.toNat)) (m.iterNodes none) (s := []) ⟨by simp, by simp, by simp⟩ (by
    rintro pre n post d - ⟨h1, h2, h3⟩
    simp only [hi]
    refine ⟨_, rfl, Dict.nodup_keys_set h1 _ _, fun x => ?_, fun x hx => ?_⟩
    · rw [mem_fst_set, List.mem_append, ← h2, List.mem_singleton]
    · rw [Dict.get_set]
      by_cases e : x = n
      · subst e; simp
      · rw [if_neg fun h => e h.symm]
        rcases List.mem_append.1 hx with hx | hx
        · exact h3 x hx
        · exact absurd (List.mem_singleton.1 hx) e)
  refine ⟨d, h1, h2, h3, fun x hx => ?_⟩
  rw [hi, h4 x hx]; rfl

/-- **C76.** `conf(net)` of a network without aspects: whatever the random outcomes, if the call returns, it returns a simple
network with the nodes of `net` in which every node has the degree `net[node].deg()`. -/
theorem C76_net [NeZero (1 : W)] {ix : Nat → α} (hix : Function.Injective ix) {m : MNet α W} (ha : m.aspects = 0)
    (hd : m.directed = false) (rnd : α → ConfRandom α) {x : Either α W} (h : confOfNet ix m rnd = .ok x) :
    ∃ m' R deg, x = .mono m' ∧ Spec.LooksMono m' (· ∈ m.iterNodes none) R ∧ Spec.HasDegrees R deg ∧
      (∀ n ∈ m.iterNodes none, m.view.itemDeg [n] = .ok (deg n : Int)) ∧ ∀ n ∉ m.iterNodes none, deg n = 0 := by
  obtain ⟨d, h1, h2, h3, h4⟩ := degsOf_ok ha hd
  unfold confOfNet at h
  rw [if_neg (by simp [ha]), h1] at h
  obtain ⟨m', R, rfl, h5, h6⟩ := C73_conf hix (degs := .nodes d) h2 _ rnd h
  have e : Spec.nodesOf ix (.nodes d) = (· ∈ m.iterNodes none) := funext fun n => propext (h3 n)
  rw [e] at h5
  refine ⟨m', R, _, rfl, h5, h6, h4, fun n hn => ?_⟩
  rw [Dict.get_eq_none.2 fun hc => hn ((h3 n).1 hc)]; rfl

/-- **C76.** `conf(net)` of a multiplex network with one aspect: the result has the same layers; each layer has the nodes of
the layer of `net` and is a simple network in which every node has the degree it has in the layer of `net`. The coupling of
the result is `("categorical",1.0)`, whatever that of `net`. -/
theorem C76_plex [NeZero (1 : W)] [IntNames α] {ix : Nat → α} (hix : Function.Injective ix) (c : Coupling α W) (z : W)
    (al : Bool) (ops : List (POp α W)) (rnd : α → ConfRandom α) {x : Either α W}
    (h : confOfPlex ix (afterP [c] false z al ops) rnd = .ok x) :
    ∃ p' al' R, x = .plex p' ∧
      Spec.LooksPlex p' (.categorical 1) al'
        (fun n => ∃ s ch, (afterP [c] false z al ops).child? (.el s) = some ch ∧ n ∈ ch.iterNodes none)
        (fun s => .el s ∈ (afterP [c] false z al ops).iterLayers)
        (fun n s => ∃ ch, (afterP [c] false z al ops).child? (.el s) = some ch ∧ n ∈ ch.iterNodes none) R ∧
      ∀ s ch, (afterP [c] false z al ops).child? (.el s) = some ch → ∃ deg, Spec.HasDegrees (R s) deg ∧
        (∀ n ∈ ch.iterNodes none, ch.view.itemDeg [n] = .ok (deg n : Int)) ∧ ∀ n ∉ ch.iterNodes none, deg n = 0 := by
  have hp := after_pinv (cs := [c]) (by simp) false z al ops
  have hpar := after_params (cs := [c]) (by simp) false z al ops
  obtain ⟨c1, c2, c3⟩ := C25_layers (cs := [c]) (by simp) false z al ops
  revert h
  generalize hP : afterP [c] false z al ops = p at *
  intro h
  have hkid : ∀ L ∈ p.iterLayers, ∃ ch, p.child? L = some ch ∧ ch.aspects = 0 ∧ ch.directed = false := by
    intro L hL
    obtain ⟨ch, hc⟩ := Option.isSome_iff_exists.1 ((c1 L).2 ((c3 L).1 hL))
    have := hp.core.kids _ _ hc
    exact ⟨ch, hc, this.asp, this.dir.trans hpar.2.1⟩
  have hel : ∀ L ∈ p.iterLayers, ∃ s, L = .el s := by
    intro L hL
    obtain ⟨t, rfl, ht, -⟩ := (c3 L).1 hL
    match t, ht with
    | [s], _ => exact ⟨s, rfl⟩
  unfold confOfPlex at h
  rw [if_neg (by simp [hpar.1])] at h
  obtain ⟨D, e1, h1, h2, h3⟩ := forE_ok (P := fun pre (D : Dict α (Degs α)) => (D.map Prod.fst).Nodup ∧
      (∀ s, s ∈ D.map Prod.fst ↔ .el s ∈ pre) ∧ ∀ y ∈ D, ∃ ch d, p.child? (.el y.1) = some ch ∧ y.2 = .nodes d ∧
        (d.map Prod.fst).Nodup ∧ (∀ x, x ∈ d.map Prod.fst ↔ x ∈ ch.iterNodes none) ∧
        ∀ x ∈ ch.iterNodes none, ch.view.itemDeg [x] = .ok ((Dict.get d x).getD 0 : Int))
    (f := noteLayer p) p.iterLayers (s := []) ⟨by simp, by simp, by simp⟩ (by
    rintro pre L post D hl ⟨h1, h2, h3⟩
    have hL : L ∈ p.iterLayers := by rw [hl]; simp
    obtain ⟨s, rfl⟩ := hel L hL
    obtain ⟨ch, k1, k2, k3⟩ := hkid _ hL
    obtain ⟨d, d1, d2, d3, d4⟩ := degsOf_ok k2 k3
    simp only [noteLayer, k1, d1]
    refine ⟨_, rfl, Dict.nodup_keys_set h1 _ _, fun x => ?_, fun y hy => ?_⟩
    · rw [mem_fst_set, List.mem_append, ← h2, List.mem_singleton, LKey.el.injEq]
    · have hnd : ((Dict.set D s (Degs.nodes d)).map Prod.fst).Nodup := Dict.nodup_keys_set h1 _ _
      have hg := Dict.get_of_mem hnd (k := y.1) (v := y.2) hy
      rw [Dict.get_set] at hg
      by_cases e : s = y.1
      · rw [if_pos e, Option.some.injEq] at hg
        rw [e] at k1
        exact ⟨ch, d, k1, hg.symm, d2, d3, d4⟩
      · rw [if_neg e] at hg
        exact h3 y (Dict.mem_of_get hg))
  rw [e1] at h
  simp only at h
  obtain ⟨p', al', R, rfl, -, h5, h6⟩ := C74_named hix (l := D) h1
    (fun y hy => by
      obtain ⟨ch, d, -, e, hd, -⟩ := h3 y hy
      rw [e]; exact hd)
    (.inl fun d hd => by
      obtain ⟨y, hy, rfl⟩ := List.mem_map.1 hd
      obtain ⟨ch, d, -, e, -⟩ := h3 y hy
      exact ⟨d, e⟩) _ rnd h
  have hmem : ∀ s, .el s ∈ p.iterLayers ↔ ∃ y ∈ D, s = y.1 := fun s => by
    rw [← h2, List.mem_map]
    exact exists_congr fun y => and_congr_right fun _ => eq_comm
  have hch : ∀ s, .el s ∈ p.iterLayers ↔ ∃ ch, p.child? (.el s) = some ch := fun s => by
    rw [c3, ← c1, Option.isSome_iff_exists]
  have key : ∀ s n, (∃ y ∈ D, s = y.1 ∧ Spec.nodesOf ix y.2 n) ↔ ∃ ch, p.child? (.el s) = some ch ∧ n ∈ ch.iterNodes none := by
    intro s n
    constructor
    · rintro ⟨y, hy, rfl, hn⟩
      obtain ⟨ch, d, k1, k2, k3, k4, k5⟩ := h3 y hy
      rw [k2] at hn
      exact ⟨ch, k1, (k4 n).1 hn⟩
    · rintro ⟨ch, hc, hn⟩
      obtain ⟨y, hy, rfl⟩ := (hmem s).1 ((hch s).2 ⟨ch, hc⟩)
      obtain ⟨ch', d, k1, k2, k3, k4, k5⟩ := h3 y hy
      rw [hc] at k1; cases k1
      exact ⟨y, hy, rfl, by rw [k2]; exact (k4 n).2 hn⟩
  refine ⟨p', al', R, rfl, ?_, fun s ch hc => ?_⟩
  · have e1 : (fun n => ∃ y ∈ D, Spec.nodesOf ix y.2 n) =
        fun n => ∃ s ch, p.child? (.el s) = some ch ∧ n ∈ ch.iterNodes none := by
      funext n
      simp only [← key]
      exact propext ⟨fun ⟨y, hy, h⟩ => ⟨y.1, y, hy, rfl, h⟩, fun ⟨s, y, hy, _, h⟩ => ⟨y, hy, h⟩⟩
    have e2 : (fun s => ∃ y ∈ D, s = y.1) = fun s => .el s ∈ p.iterLayers := funext fun s => propext (hmem s).symm
    have e3 : (fun n s => ∃ y ∈ D, s = y.1 ∧ Spec.nodesOf ix y.2 n) =
        fun n s => ∃ ch, p.child? (.el s) = some ch ∧ n ∈ ch.iterNodes none := by
      funext n s; exact propext (key s n)
    rw [← e1, ← e2, ← e3]; exact h5
  · obtain ⟨y, hy, rfl⟩ := (hmem s).1 ((hch s).2 ⟨ch, hc⟩)
    obtain ⟨ch', d, k1, k2, k3, k4, k5⟩ := h3 y hy
    rw [hc] at k1; cases k1
    refine ⟨fun x => (Dict.get d x).getD 0, ?_, k5, fun n hn => ?_⟩
    · have := h6 y hy
      rw [k2] at this; exact this
    · dsimp only
      rw [Dict.get_eq_none.2 fun hc => hn ((k4 n).1 hc)]; rfl

private def netOps : List (Op Int Int) := [.setItem [1, 2] 5, .setItem [2, 3] 7, .addNode 9 none]
private def plexOps : List (POp Int Int) := [.setItem [1, 2, 7, 7] 5, .setItem [2, 3, 7, 7] 7, .setItem [1, 3, 8, 8] 1]

example : (confOfNet (fun i : Nat => (i : Int)) ((MNet.init 0 0 false true).run netOps)
    fun _ => ⟨[], [2, 1, 3, 2], [], [], []⟩) matches .ok (.mono _) := by decide +kernel
example : (confOfPlex (fun i : Nat => (i : Int)) (afterP [.ordinal 3] false 0 true plexOps)
    fun s => if s = 7 then ⟨[], [2, 1, 3, 2], [], [], []⟩ else ⟨[], [1, 3], [], [], []⟩) matches .ok (.plex _) := by decide +kernel

end Pymnet
