import Verif.Proofs.Supra

/-! From what a user sees of a network to its state, and back. -/

set_option linter.unusedSectionVars false
set_option linter.unusedSimpArgs false

namespace Pymnet

open Py

variable {α W : Type} [DecidableEq α] [DecidableEq W]

namespace Spec.Looks

variable {m : MNet α W} {d : Nat} {z : W} {dir al : Bool} {S S' : Nat → α → Prop} {NL NL' : List α → Prop}
  {R R' : List α → List α → W}

theorem inv (h : Looks m d z dir al S NL R) : m.Inv := by
  obtain ⟨ops, rfl⟩ := h.reachable; exact MNet.run_inv (MNet.init_inv ..) ops

theorem al0 (h : Looks m d z dir al S NL R) : d = 0 → al = true := by
  intro h0
  rw [← h.aligned_eq]; exact h.inv.r.fic0 (h.aspects_eq.trans h0)

theorem inSlice (h : Looks m d z dir al S NL R) {k : Nat} (hk : k ≤ d) (x : α) : m.inSlice k x ↔ S k x := by
  obtain ⟨l, h1, -, h3⟩ := h.layers k hk
  rw [← h3 x]
  unfold MNet.getLayers at h1
  unfold MNet.inSlice
  cases hs : m.slices[k]? with
  | none => rw [hs] at h1; cases h1
  | some s => rw [hs] at h1; cases h1; simp

theorem inS (h : Looks m d z dir al S NL R) {k : Nat} (hk : k ≤ d) (x : α) : m.view.inS k x ↔ S k x := h.inSlice hk x

theorem not_inS (h : Looks m d z dir al S NL R) {k : Nat} (hk : ¬ k ≤ d) (x : α) : ¬ m.view.inS k x := by
  rintro ⟨s, hs, -⟩
  have := (List.getElem?_eq_some_iff.1 hs).1
  have h2 : m.slices.length = d + 1 := by rw [h.inv.r.slen, h.aspects_eq]
  change k < m.slices.length at this
  omega

theorem reads_eq (h : Looks m d z dir al S NL R) {u v : List α} (hu : u.length = d + 1) (hv : v.length = d + 1) :
    m.reads u v = R u v := by
  have h1 := h.reads (interleave u v) u v ⟨hu, hv, Or.inl (interleave_eq_link u v)⟩
  have hl := MNet.getLink_interleave m (u := u) (v := v) (by omega) (by rintro rfl; simp at hu)
  have h2 := View.getItem_addresses (v := m.view) (item := interleave u v) (a := u) (b := v)
    ⟨by rw [hu]; exact congrArg (· + 1) h.aspects_eq.symm, by rw [hv]; exact congrArg (· + 1) h.aspects_eq.symm,
      Or.inl (interleave_eq_link u v)⟩ hl
  rw [h1] at h2
  injection h2 with h2; injection h2 with h2
  exact h2.symm

theorem sound (h : Looks m d z dir al S NL R) : m.view.Sound m.reads := h.inv.sound

theorem mem_product (h : Looks m d z dir al S NL R) (a : List α) :
    a ∈ product m.slices ↔ AllNodeLayers d S a := by
  have := h.sound.mem_product a
  refine this.trans ?_
  unfold AllNodeLayers
  have e : m.view.aspects = d := h.aspects_eq
  rw [e]
  refine and_congr_right fun hl => ?_
  constructor
  · intro h1 i x hx
    have hi : i ≤ d := by have := (List.getElem?_eq_some_iff.1 hx).1; omega
    exact (h.inS hi x).1 (h1 i x hx)
  · intro h1 i x hx
    have hi : i ≤ d := by have := (List.getElem?_eq_some_iff.1 hx).1; omega
    exact (h.inS hi x).2 (h1 i x hx)

/-- Links only join node-layers of the network. -/
theorem linked (h : Looks m d z dir al S NL R) {u v : List α} (hu : u.length = d + 1) (hv : v.length = d + 1)
    (hR : R u v ≠ z) : (u ∈ product m.slices ∧ NL u) ∧ (v ∈ product m.slices ∧ NL v) := by
  rw [← h.reads_eq hu hv, ← h.noEdge_eq] at hR
  have hsome := (MNet.reads_ne_noEdge h.inv.l ..).1 hR
  obtain ⟨w, hw⟩ := Option.isSome_iff_exists.1 hsome
  have ra := (MNet.reg_iff h.inv.r u).1 (h.inv.reg u v w hw).1
  have rb := (MNet.reg_iff h.inv.r v).1 (h.inv.reg u v w hw).2
  obtain ⟨l, l1, -, -, l4⟩ := h.sound.nls
  cases l1
  have := l4 u ra v rb hR
  exact ⟨⟨ra, (h.nodeLayers.2 u).1 this.1⟩, rb, (h.nodeLayers.2 v).1 this.2⟩

theorem nl_length (h : Looks m d z dir al S NL R) {nl : List α} (hn : NL nl) : nl.length = d + 1 := by
  obtain ⟨l, l1, -, l3, -⟩ := h.sound.nls
  cases l1
  rw [h.sound.length_of_mem (l3 nl ((h.nodeLayers.2 nl).2 hn))]
  exact congrArg (· + 1) h.aspects_eq

theorem nl_product (h : Looks m d z dir al S NL R) {nl : List α} (hn : NL nl) : nl ∈ product m.slices := by
  obtain ⟨l, l1, -, l3, -⟩ := h.sound.nls
  cases l1
  exact l3 nl ((h.nodeLayers.2 nl).2 hn)

theorem nl_aligned (h : Looks m d z dir true S NL R) (nl : List α) : NL nl ↔ AllNodeLayers d S nl := by
  rw [← h.nodeLayers.2, MNet.mem_nodeLayers h.inv.r, if_pos h.aligned_eq, ← h.mem_product]

theorem sym (h : Looks m d z false al S NL R) {u v : List α} (hu : u.length = d + 1) (hv : v.length = d + 1) :
    R u v = R v u := by
  by_cases hR : R u v = z
  · by_cases hR' : R v u = z
    · rw [hR, hR']
    · have := h.linked hv hu hR'
      rw [← h.reads_eq hu hv, ← h.reads_eq hv hu]
      exact h.sound.sym h.directed_eq _ this.2.1 _ this.1.1
  · have := h.linked hu hv hR
    rw [← h.reads_eq hu hv, ← h.reads_eq hv hu]
    exact h.sound.sym h.directed_eq _ this.1.1 _ this.2.1

theorem congr (h : Looks m d z dir al S NL R) (hS : ∀ k ≤ d, ∀ x, S k x ↔ S' k x) (hN : ∀ nl, NL nl ↔ NL' nl)
    (hR : ∀ u v, u.length = d + 1 → v.length = d + 1 → R u v = R' u v) : Looks m d z dir al S' NL' R' :=
  { h with
    layers := fun a ha => by
      obtain ⟨l, h1, h2, h3⟩ := h.layers a ha
      exact ⟨l, h1, h2, fun x => (h3 x).trans (hS a ha x)⟩
    nodeLayers := ⟨h.nodeLayers.1, fun nl => (h.nodeLayers.2 nl).trans (hN nl)⟩
    reads := fun item u v ha => by
      rw [h.reads item u v ha, hR u v ha.1 ha.2.1] }

/-- Two networks that look alike and whose nodes are on the same layers are `==`. -/
theorem eqOn (h : Looks m d z dir al S NL R) {o : MNet α W} (ho : Looks o d z dir al S NL R)
    (hon : al = false → ∀ n L, m.onLayer n L ↔ o.onLayer n L) : m.eq o = .ok true := by
  have nm : m.NE := by
    obtain ⟨ops, hops⟩ := h.reachable
    rw [hops]; exact MNet.run_ne (MNet.init_ne _ _ _ _) ops
  have no : o.NE := by
    obtain ⟨ops, hops⟩ := ho.reachable
    rw [hops]; exact MNet.run_ne (MNet.init_ne _ _ _ _) ops
  obtain ⟨b, e, hb⟩ := MNet.eq_spec h.inv ho.inv (fun _ => nm) (fun _ => no) (h.aligned_eq.trans ho.aligned_eq.symm)
  rw [e]
  congr 1
  rw [hb]
  refine ⟨h.directed_eq.trans ho.directed_eq.symm, h.aspects_eq.trans ho.aspects_eq.symm,
    h.noEdge_eq.trans ho.noEdge_eq.symm, fun i x => ?_, fun hf n L => ?_, fun a b => ?_⟩
  · by_cases hi : i ≤ d
    · rw [h.inSlice hi, ho.inSlice hi]
    · exact iff_of_false (h.not_inS hi x) (ho.not_inS hi x)
  · exact hon (h.aligned_eq.symm.trans hf) n L
  · have hlen : ∀ {o : MNet α W}, Looks o d z dir al S NL R → ∀ w, o.lk a b = some w → a.length = d + 1 ∧ b.length = d + 1 := by
      intro o ho w hw
      have := ho.inv.reg a b w hw
      rw [← ho.aspects_eq]
      exact ⟨this.1.1, this.2.1⟩
    have val : ∀ {o : MNet α W}, Looks o d z dir al S NL R → ∀ w, o.lk a b = some w → R a b = w ∧ w ≠ z := by
      intro o ho w hw
      have hl := hlen ho w hw
      refine ⟨?_, by rw [← ho.noEdge_eq]; exact ho.inv.l.val a b w hw⟩
      rw [← ho.reads_eq hl.1 hl.2]; unfold MNet.reads; rw [hw]; rfl
    have inv : ∀ {o : MNet α W}, Looks o d z dir al S NL R → a.length = d + 1 → b.length = d + 1 → R a b ≠ z →
        o.lk a b = some (R a b) := by
      intro o ho ha hb hR
      rw [← ho.reads_eq ha hb, ← ho.noEdge_eq] at hR
      obtain ⟨w, hw⟩ := Option.isSome_iff_exists.1 ((MNet.reads_ne_noEdge ho.inv.l ..).1 hR)
      rw [hw, (val ho w hw).1]
    cases h1 : m.lk a b with
    | some w =>
      have hl := hlen h w h1
      have hv := val h w h1
      rw [inv ho hl.1 hl.2 (by rw [hv.1]; exact hv.2), hv.1]
    | none =>
      cases h2 : o.lk a b with
      | none => rfl
      | some w =>
        have hl := hlen ho w h2
        have hv := val ho w h2
        rw [inv h hl.1 hl.2 (by rw [hv.1]; exact hv.2)] at h1
        cases h1

/-- Two node-aligned or one-aspect networks that look alike are `==`. -/
theorem eq (h : Looks m d z dir al S NL R) {o : MNet α W} (ho : Looks o d z dir al S NL R) (hal : al = true ∨ d = 1) :
    m.eq o = .ok true := by
  refine h.eqOn ho fun hf n L => ?_
  have hd1 : d = 1 := by
    rcases hal with hal | hal
    · rw [hal] at hf; cases hf
    · exact hal
  subst hd1
  have key : ∀ {o : MNet α W}, Looks o 1 z dir al S NL R → (o.onLayer n L ↔ ∃ a, L = .el a ∧ NL [n, a]) := by
    intro o ho
    have hfo : o.fic = false := by rw [ho.aligned_eq, hf]
    constructor
    · intro hL
      rcases (ho.inv.r.nlkind n L hL).2 with ⟨-, a, rfl⟩ | ⟨h2, -⟩
      · refine ⟨a, rfl, ?_⟩
        rw [← ho.nodeLayers.2, MNet.mem_nodeLayers ho.inv.r, if_neg (by simp [hfo])]
        exact ⟨by rw [ho.aspects_eq]; rfl, n, [a], rfl, hL⟩
      · have := ho.aspects_eq; omega
    · rintro ⟨a, rfl, hn⟩
      rw [← ho.nodeLayers.2, MNet.mem_nodeLayers ho.inv.r, if_neg (by simp [hfo])] at hn
      obtain ⟨-, n', t, e, ho'⟩ := hn
      cases e; exact ho'
  rw [key h, key ho]

end Spec.Looks

end Pymnet
