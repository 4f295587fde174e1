import Verif.Model.LayoutNl
import Verif.Proofs.VisualsNet

/-! Proofs about the Fruchterman-Reingold layout of node-layers. -/

namespace Pymnet

open Py

section

variable {κ K : Type} [DecidableEq κ] [Field K] [LinearOrder K]

/-- the ends of links and pairs are node-layers -/
structure FrNlNet.Ok (net : FrNlNet κ) : Prop where
  nodup : net.nls.Nodup
  ends : ∀ e ∈ net.edges, e.1 ∈ net.nls ∧ e.2 ∈ net.nls
  pairs : ∀ e ∈ net.pairs, e.1 ∈ net.nls ∧ e.2 ∈ net.nls

variable [IsStrictOrderedRing K]

theorem frNlStep_or {net : FrNlNet κ} (hnet : net.Ok) (hne : net.nls ≠ []) (sqrt : K → K) (nodeDist : K) (box : K × K) (fixed : List κ) (T : K)
    {nc : Dict κ (K × K)} (hnc : Dict.keys nc = net.nls) :
    frNlStep sqrt net nodeDist box fixed T nc = .error .zeroDivisionError ∨
    ∃ new, frNlStep sqrt net nodeDist box fixed T nc = .ok new ∧ Dict.keys new = net.nls ∧ Spec.FillsUnit new ∧
      Spec.KeepsShape (· ∈ fixed) nc new := by
  have hget : ∀ n ∈ net.nls, ∃ c, Dict.get nc n = some c := fun n hn =>
    Option.isSome_iff_exists.1 (Dict.mem_keys.1 (by rw [hnc]; exact hn))
  obtain ⟨d1, e1, k1⟩ := forE_ok (f := springNl sqrt nodeDist nc) (P := fun _ d => Dict.keys d = net.nls)
    (s := nc.map fun p => (p.1, ((0 : K), (0 : K)))) net.edges (by rw [← hnc]; simp [Dict.keys]) (by
      intro pre b post s hl hs
      have hb := hnet.ends b (by rw [hl]; simp)
      unfold springNl
      obtain ⟨c1, h1⟩ := hget _ hb.1
      obtain ⟨c2, h2⟩ := hget _ hb.2
      simp only [h1, h2]
      obtain ⟨d', e, k⟩ := addForce_ok (delta := s) (n1 := b.1) (n2 := b.2) (by rw [hs]; exact hb.1) (by rw [hs]; exact hb.2)
        (-(max (sqrt ((c1.1 - c2.1) ^ 2 + (c1.2 - c2.2) ^ 2)) (1 / 100) / nodeDist)) (c1.1 - c2.1, c1.2 - c2.2)
      exact ⟨d', e, k.trans hs⟩)
  obtain ⟨d2, e2, k2⟩ := forE_ok (f := repulseNl sqrt nodeDist nc) (P := fun _ d => Dict.keys d = net.nls)
    (s := d1) net.pairs k1 (by
      intro pre b post s hl hs
      have hb := hnet.pairs b (by rw [hl]; simp)
      unfold repulseNl
      split
      · exact ⟨s, rfl, hs⟩
      · obtain ⟨c1, h1⟩ := hget _ hb.1
        obtain ⟨c2, h2⟩ := hget _ hb.2
        simp only [h1, h2]
        obtain ⟨d', e, k⟩ := addForce_ok (delta := s) (n1 := b.1) (n2 := b.2) (by rw [hs]; exact hb.1) (by rw [hs]; exact hb.2)
          (nodeDist ^ 2 / (max (sqrt ((c1.1 - c2.1) ^ 2 + (c1.2 - c2.2) ^ 2)) (1 / 100)) ^ 2) (c1.1 - c2.1, c1.2 - c2.2)
        exact ⟨d', e, k.trans hs⟩)
  obtain ⟨nc', e3, k3, f3⟩ := forE_ok (f := moveNode sqrt fixed T d2) (P := fun _ d => Dict.keys d = net.nls ∧ ∀ k ∈ fixed, Dict.get d k = Dict.get nc k)
    (s := nc) (Dict.keys d2) ⟨hnc, fun _ _ => rfl⟩ (by
      intro pre b post s hl ⟨hs, hfix⟩
      have hb : b ∈ Dict.keys d2 := by rw [hl]; simp
      obtain ⟨d, hd⟩ := Option.isSome_iff_exists.1 (Dict.mem_keys.1 hb)
      rw [k2] at hb
      simp only [moveNode, hd]
      split
      · exact ⟨s, rfl, hs, hfix⟩
      · rename_i hbf
        obtain ⟨c, hc⟩ := Option.isSome_iff_exists.1 (Dict.mem_keys.1 (by rw [hs]; exact hb : b ∈ Dict.keys s))
        simp only [hc]
        exact ⟨_, rfl, by rw [keys_set_mem _ _ (by rw [hs]; exact hb), hs], fun k hk => by
          rw [Dict.get_set_ne _ _ (fun e => hbf (by first | exact e ▸ hk | exact e.symm ▸ hk)), hfix k hk]⟩)
  have hr : frNlStep sqrt net nodeDist box fixed T nc = normalizeCoordinates nc' box true := by simp only [frNlStep, e1, e2, e3]
  rw [hr]
  rcases normalize_or (coords := nc') (by rw [k3]; exact hnet.nodup) (by rintro rfl; exact hne (by rw [← k3]; rfl)) box true with h | ⟨new, h1, h2, h3⟩
  · exact Or.inl h
  · exact Or.inr ⟨new, h1, h2.1.trans k3, h3, keepsShape_of_eq f3 h2⟩

theorem frNlLoop_or {net : FrNlNet κ} (hnet : net.Ok) (hne : net.nls ≠ []) (sqrt : K → K) (nodeDist : K) (box : K × K) (fixed : List κ) (dT : K)
    (n : Nat) : ∀ (T : K) {nc : Dict κ (K × K)}, Dict.keys nc = net.nls →
    frNlLoop sqrt net nodeDist box fixed dT (n + 1) T nc = .error .zeroDivisionError ∨
    ∃ new, frNlLoop sqrt net nodeDist box fixed dT (n + 1) T nc = .ok new ∧ Dict.keys new = net.nls ∧ Spec.FillsUnit new ∧
      Spec.KeepsShape (· ∈ fixed) nc new := by
  induction n with
  | zero =>
    intro T nc hnc
    rcases frNlStep_or hnet hne sqrt nodeDist box fixed T hnc with h | ⟨new, h1, h2, h3, h4⟩
    · left; simp only [frNlLoop, h]
    · right; exact ⟨new, by simp only [frNlLoop, h1], h2, h3, h4⟩
  | succ n ih =>
    intro T nc hnc
    rcases frNlStep_or hnet hne sqrt nodeDist box fixed T hnc with h | ⟨new, h1, h2, h3, h4⟩
    · left; rw [frNlLoop, h]
    · rw [frNlLoop, h1]
      rcases ih (T - dT) h2 with h | ⟨new', g1, g2, g3, g4⟩
      · exact Or.inl h
      · exact Or.inr ⟨new', g1, g2, g3, h4.trans g4⟩

omit [IsStrictOrderedRing K] in
theorem frDist_or (sqrt : K → K) (n : Nat) {nodeDist : Option K} (hd : ∀ x, nodeDist = some x → 0 < x) :
    frDist sqrt n nodeDist = .error .zeroDivisionError ∨ ∃ x, frDist sqrt n nodeDist = .ok x := by
  cases nodeDist with
  | none =>
    by_cases h0 : sqrt (n : K) = 0
    · exact Or.inl (by simp only [frDist, h0, if_true])
    · exact Or.inr ⟨1 / sqrt (n : K), by simp only [frDist, h0, if_false]⟩
  | some x => exact Or.inr ⟨x, by simp [frDist, hd x rfl]⟩

theorem frNlLayout_or {net : FrNlNet κ} (hnet : net.Ok) (hne : net.nls ≠ []) (sqrt : K → K) (nodeDist : Option K)
    (hd : ∀ x, nodeDist = some x → 0 < x) (box : K × K) (start : κ → K × K) (fixed : List κ) (n : Nat) :
    frNlLayout sqrt net nodeDist box start fixed n = .error .zeroDivisionError ∨
    ∃ new, frNlLayout sqrt net nodeDist box start fixed n = .ok new ∧ Dict.keys new = net.nls ∧ Spec.FillsUnit new ∧
      ∃ a b c d : K, 0 < a ∧ 0 < c ∧ ∀ k ∈ fixed, k ∈ net.nls → Dict.get new k = some (a * (start k).1 + b, c * (start k).2 + d) := by
  unfold frNlLayout
  rcases frDist_or sqrt net.size hd with h | ⟨x, h⟩
  · left; simp only [h]
  · simp only [h]
    cases n with
    | zero => left; simp
    | succ n =>
      simp only [Nat.add_eq_zero_iff, Nat.one_ne_zero, and_false, if_false]
      rcases frNlLoop_or hnet hne sqrt x box fixed _ n _ (keys_foldl_set net.nls hnet.nodup start) with
        h | ⟨new, g1, g2, g3, a, b, c, d, ha, hc, g4⟩
      · exact Or.inl h
      · exact Or.inr ⟨new, g1, g2, g3, a, b, c, d, ha, hc, fun k hk hg => g4 k _ _ hk (get_foldl_set _ _ _ hg)⟩

end

section

variable {α W : Type} [DecidableEq α] [DecidableEq W] {m : MNet α W} {d : Nat} {dir al : Bool} {S : Nat → α → Prop} {NL : List α → Prop}
  {R : List α → List α → W}

/-- the node-layers of the links -/
theorem View.Sound.endNls {v : View α W} {R : List α → List α → W} (h : v.Sound R) {nls : List (List α)} (hn : v.nodeLayers = .ok nls) :
    ∃ es ends, v.edges = .ok es ∧ View.collect edgeNls es = .ok ends ∧ ∀ e ∈ ends, e.1 ∈ nls ∧ e.2 ∈ nls := by
  obtain ⟨ps, h1, -, h3, -⟩ := h.edges
  obtain ⟨nls', n1, -, -, n4⟩ := h.nls
  rw [hn] at n1; cases n1
  refine ⟨_, ps, h1, ?_, fun e he => ?_⟩
  · have key : ∀ l : List (List α × List α), (∀ p ∈ l, p ∈ ps) → View.collect edgeNls (l.map (View.tuple R)) = .ok l := by
      intro l
      induction l with
      | nil => intro _; rfl
      | cons p l ih =>
        intro hl
        obtain ⟨ha, hb, -⟩ := h3 p (hl p (by simp))
        obtain ⟨x, t, hx, -⟩ := h.head_mem ha
        have e : linkToNodes (interleave p.1 p.2) = .ok p :=
          linkToNodes_interleave (by rw [h.length_of_mem ha, h.length_of_mem hb]) (by rw [hx]; simp)
        simp only [List.map_cons, View.collect, View.tuple, edgeNls, e]
        rw [ih fun q hq => hl q (by simp [hq])]; rfl
    exact key ps fun _ h => h
  · obtain ⟨ha, hb, hR⟩ := h3 e he
    exact n4 _ ha _ hb (by first | exact hR | exact hR.1)

theorem Spec.Looks.frNlNet [AddCommMonoid W] (h : Spec.Looks m d 0 dir false S NL R) (hd : 1 ≤ d) (all : α) :
    ∃ net, m.frNlNet all = .ok net ∧ net.Ok ∧ ∀ nl, nl ∈ net.nls ↔ NL nl := by
  have hasp : ¬ m.aspects < 1 := by rw [h.aspects_eq]; omega
  have hf : m.fic = false := h.aligned_eq
  obtain ⟨es, ends, e1, e2, e3⟩ := h.sound.endNls (nls := m.nodeLayers) rfl
  refine ⟨⟨(m.slices.headD []).length, m.nodeLayers, ends,
    m.nodeLayers.flatMap fun nl => (m.iterNodes (some (layerOfNl nl))).map fun n => (nl, n :: nl.drop 1)⟩,
    by simp only [MNet.frNlNet, if_neg hasp, hf, Bool.false_eq_true, if_false, e1, e2], ⟨h.nodeLayers.1, e3, fun e he => ?_⟩, h.nodeLayers.2⟩
  simp only [List.mem_flatMap, List.mem_map] at he
  obtain ⟨nl, hnl, n, hn, rfl⟩ := he
  refine ⟨hnl, ?_⟩
  rw [MNet.mem_nodeLayers h.inv.r, if_neg (by rw [hf]; simp)] at hnl ⊢
  obtain ⟨hp, n', t, rfl, ho⟩ := hnl
  simp only [MNet.iterNodes, hf, Bool.false_eq_true, if_false, layerOfNl, List.drop_succ_cons, List.drop_zero] at hn
  have ho' : m.onLayer n (LKey.ofList t) := (h.inv.r.n2l n _).2 hn
  exact ⟨by simpa using hp, n, t, rfl, ho'⟩

theorem Spec.Looks.frNlNet_aligned [AddCommMonoid W] (h : Spec.Looks m 1 0 dir true S NL R) (all : α) :
    ∃ net, m.frNlNet all = .ok net ∧ net.Ok ∧ ∀ nl, nl ∈ net.nls ↔ ∃ n, S 0 n ∧ nl = [n, all] := by
  have hasp : ¬ m.aspects < 1 := by rw [h.aspects_eq]; omega
  have hf : m.fic = true := h.aligned_eq
  obtain ⟨net, e, hok, hm⟩ := h.frNet (le_refl _) (fun _ => rfl) (by simp)
  refine ⟨⟨net.nodes.length, net.nodes.map fun n => [n, all], net.edges.map fun e => ([e.1, all], [e.2, all]),
    net.nodes.flatMap fun a => net.nodes.map fun b => ([a, all], [b, all])⟩, by simp only [MNet.frNlNet, if_neg hasp, hf, if_true, e], ⟨?_, ?_, ?_⟩, fun nl => ?_⟩
  · exact hok.nodup.map fun a b hab => by simpa using hab
  · intro x hx
    simp only [List.mem_map] at hx
    obtain ⟨y, hy, rfl⟩ := hx
    have := hok.ends y hy
    simp [this]
  · intro x hx
    simp only [List.mem_flatMap, List.mem_map] at hx
    obtain ⟨a, ha, b, hb, rfl⟩ := hx
    simp [ha, hb]
  · simp only [List.mem_map, ← hm]
    constructor
    · rintro ⟨a, ha, rfl⟩; exact ⟨a, ha, rfl⟩
    · rintro ⟨a, ha, rfl⟩; exact ⟨a, ha, rfl⟩

end

end Pymnet
