import Verif.Proofs.ConfLayers

/-! Every simple network with the given degrees is a possible result. -/

set_option linter.unusedSectionVars false

namespace Pymnet

open Py Models

variable {α W σ τ : Type} [DecidableEq α] [DecidableEq W] [LinearOrder α] [Zero W] [One W]

theorem forS_id {τ β : Type} {f : τ → β → Except Stop τ} {s : τ} : ∀ (l : List β), (∀ b ∈ l, f s b = .ok s) →
    forS f l s = .ok s
  | [], _ => rfl
  | b :: t, h => by
    rw [forS, h b (by simp)]
    exact forS_id t fun c hc => h c (by simp [hc])

section
variable {T : Target σ α W} {P : σ → (α → Prop) → (α → α → W) → Prop} {stubs zeros : List α}

/-- if the shuffled stubs need no repairs -/
theorem confStubs_returns [NeZero (1 : W)] (F : Fills T P) {s : σ} {nstubs nodes : Nat}
    (h : NetOf P (fun a => a ∈ stubs ∨ a ∈ zeros) zeros s (fun _ => False)) (hlen : stubs.length = nstubs)
    (heven : nstubs % 2 = 0) (hroom : nstubs ≤ nodes * (nodes - 1)) {sh : List α} (hperm : sh.Perm stubs)
    (hone : ∀ q, cnt q (toPairs sh) ≤ 1) (hdiag : ∀ p ∈ toPairs sh, p.1 ≠ p.2) (ns : List Nat) :
    ∃ net, confStubs T nstubs nodes stubs ⟨ns, sh, [], [], []⟩ s = .ok net ∧
      NetOf P (fun a => a ∈ stubs ∨ a ∈ zeros) zeros net (fun q => 0 < cnt q (toPairs sh)) := by
  unfold confStubs
  rw [if_neg (by omega), if_neg (by omega), if_neg (by simpa using hperm)]
  obtain ⟨f, e1, hf⟩ := confLinks_ok F h (pairs := toPairs sh) (fun p hp => by
    have := mem_toPairs _ p hp
    exact ⟨hperm.mem_iff.1 this.1, hperm.mem_iff.1 this.2⟩)
  simp only [e1]
  have hm : f.multi = [] := List.eq_nil_iff_forall_not_mem.2 fun q hq => by
    have := ((hf.multi q).1 hq).2
    have := hone q
    omega
  have hs : ∀ x ∈ f.selfs, x.2 = [] := by
    rintro ⟨k, l⟩ hx
    have h1 := hf.selfs k
    rw [Dict.get_of_mem hf.keys hx] at h1
    simp only [Option.getD_some] at h1
    refine List.eq_nil_iff_forall_not_mem.2 fun i hi => ?_
    rw [h1] at hi
    obtain ⟨p, hp, hk⟩ := ((hf.eti (k, k)).2 i).1 hi
    exact hdiag p (List.mem_of_getElem? hp) (srt_diag.1 (show (key p).1 = (key p).2 by rw [hk]))
  rw [forS_id f.selfs (fun x hx => by rw [hs x hx]; rfl), hm]
  simp only [List.Perm.refl, not_true, if_false, forS]
  refine ⟨_, rfl, hf.net.congr fun q => ?_⟩
  constructor
  · intro hq
    refine ⟨?_, hq⟩
    obtain ⟨p, hp, rfl⟩ := cnt_pos.1 hq
    exact fun e => hdiag p hp (srt_diag.1 e)
  · exact fun hq => hq.2

end

/-- the flattened list of pairs -/
def flatE (E : List (α × α)) : List α := E.flatMap fun p => [p.1, p.2]

theorem toPairs_flatE (E : List (α × α)) : toPairs (flatE E) = E := by
  induction E with
  | nil => simp [flatE, toPairs]
  | cons p t ih =>
    have : flatE (p :: t) = p.1 :: p.2 :: flatE t := rfl
    rw [this, toPairs, ih]

theorem length_flatE (E : List (α × α)) : (flatE E).length = 2 * E.length := by
  simp [flatE, List.length_flatMap]; omega

/-- the links of a simple network on finitely many nodes -/
theorem exists_edges {names : List α} (hn : names.Nodup) {R : α → α → W} {deg : α → Nat} (h : Spec.HasDegrees R deg)
    [NeZero (1 : W)] (hsup : ∀ a, a ∉ names → deg a = 0) :
    ∃ E : List (α × α), (∀ q, cnt q E ≤ 1) ∧ (∀ p ∈ E, p.1 ≠ p.2) ∧ (∀ a b, R a b = 1 ↔ 0 < cnt (srt a b) E) ∧
      ∀ a, (flatE E).count a = deg a := by
  have hmem : ∀ {a b}, R a b = 1 → a ∈ names := by
    intro a b hab
    by_contra ha
    obtain ⟨L, -, l2, l3⟩ := h.degree a
    rw [hsup a ha, List.length_eq_zero_iff] at l3
    have := (l2 b).2 hab
    simp [l3] at this
  let E : List (α × α) := (names ×ˢ names).filter fun p => decide (p.1 < p.2) && decide (R p.1 p.2 = 1)
  have hE : ∀ p, p ∈ E ↔ p.1 < p.2 ∧ R p.1 p.2 = 1 := by
    intro p
    simp only [E, List.mem_filter, Bool.and_eq_true, decide_eq_true_eq]
    constructor
    · exact fun x => x.2
    · exact fun x => ⟨List.pair_mem_product.2 ⟨hmem x.2, hmem (by rw [h.symm]; exact x.2)⟩, x⟩
  have hkey : ∀ p ∈ E, key p = p := by
    intro p hp
    have := ((hE p).1 hp).1
    unfold key srt
    rw [if_neg (not_lt.2 this.le)]
  have hEn : E.Nodup := (hn.product hn).filter _
  have hmap : E.map key = E := by
    conv_rhs => rw [← List.map_id E]
    exact List.map_congr_left hkey
  have hone : ∀ q, cnt q E ≤ 1 := fun q => by
    rw [cnt_eq_count, hmap]; exact List.nodup_iff_count_le_one.1 hEn q
  have hdiag : ∀ p ∈ E, p.1 ≠ p.2 := fun p hp => ne_of_lt ((hE p).1 hp).1
  have hR : ∀ a b, R a b = 1 ↔ 0 < cnt (srt a b) E := by
    intro a b
    rw [cnt_pos]
    constructor
    · intro hab
      rcases lt_trichotomy a b with hlt | rfl | hlt
      · exact ⟨(a, b), (hE _).2 ⟨hlt, hab⟩, rfl⟩
      · rw [h.noSelf] at hab; exact absurd hab (NeZero.ne' 1)
      · exact ⟨(b, a), (hE _).2 ⟨hlt, by rw [h.symm]; exact hab⟩, srt_comm b a⟩
    · rintro ⟨p, hp, hk⟩
      have h1 := ((hE p).1 hp).2
      rcases key_ends.1 hk with ⟨e1, e2⟩ | ⟨e1, e2⟩ <;> rw [e1, e2] at h1
      · exact h1
      · rw [h.symm]; exact h1
  refine ⟨E, hone, hdiag, hR, fun a => ?_⟩
  have hs : Simple (flatE E) E (fun q => 0 < cnt q E) :=
    ⟨fun a => by rw [← toPairs_ends (flatE E) (by rw [length_flatE]; omega), toPairs_flatE], fun _ => Iff.rfl, hone, hdiag⟩
  obtain ⟨L, l1, l2, l3⟩ := hs.neighbours a
  obtain ⟨L', l1', l2', l3'⟩ := h.degree a
  rw [← l3, ← l3']
  exact ((List.perm_ext_iff_of_nodup l1 l1').2 fun b => by rw [l2, l2', hR]).length_eq

theorem sum_le_of_forall {l : List (α × Nat)} {n : Nat} (h : ∀ x ∈ l, x.2 ≤ n) : (l.map Prod.snd).sum ≤ l.length * n := by
  induction l with
  | nil => simp
  | cons x t ih =>
    have h1 := ih fun y hy => h y (by simp [hy])
    have h2 := h x (by simp)
    simp only [List.map_cons, List.sum_cons, List.length_cons, Nat.add_mul, Nat.one_mul]
    omega

section
variable {T : Target σ α W} {P : σ → (α → Prop) → (α → α → W) → Prop}

/-- every simple network with the given degrees is a possible result of `single_layer_conf` -/
theorem singleLayerConf_reaches [NeZero (1 : W)] (F : Fills T P) (ix : Nat → α) {s : σ}
    (h : P s (fun _ => False) (fun _ _ => 0)) {d : Dict α Nat} (hn : (d.map Prod.fst).Nodup) {R : α → α → W}
    (hR : Spec.HasDegrees R fun x => (Dict.get d x).getD 0) :
    ∃ rnd net, singleLayerConf T ix (.nodes d) rnd s = .ok net ∧ P net (· ∈ d.map Prod.fst) R := by
  have hsup : ∀ a, a ∉ d.map Prod.fst → (Dict.get d a).getD 0 = 0 := fun a ha => by
    rw [Dict.get_eq_none.2 ha]; rfl
  obtain ⟨E, hone, hdiag, hE, hcount⟩ := exists_edges hn hR hsup
  have hperm : (flatE E).Perm (stubsOf d) := List.perm_iff_count.2 fun a => by rw [hcount, count_stubsOf hn]
  obtain ⟨s1, e1, h1⟩ := stubsNodes_ok F h d
  have hlen : (stubsOf d).length = (d.map Prod.snd).sum := length_stubsOf d
  have hflat : (d.map Prod.snd).sum = 2 * E.length := by rw [← hlen, ← hperm.length_eq, length_flatE]
  have hroom : (d.map Prod.snd).sum ≤ List.length d * (List.length d - 1) := by
    refine sum_le_of_forall fun x hx => ?_
    obtain ⟨L, l1, l2, l3⟩ := hR.degree x.1
    rw [Dict.get_of_mem hn hx, Option.getD_some] at l3
    have hsub : ∀ b ∈ L, b ∈ (d.map Prod.fst).erase x.1 := by
      intro b hb
      have hb1 := (l2 b).1 hb
      have hne : b ≠ x.1 := by
        rintro rfl
        rw [hR.noSelf] at hb1; exact absurd hb1 (NeZero.ne' 1)
      rw [List.mem_erase_of_ne hne]
      by_contra hb2
      obtain ⟨L', -, m2, m3⟩ := hR.degree b
      rw [hsup b hb2, List.length_eq_zero_iff] at m3
      have := (m2 x.1).2 (by rw [hR.symm]; exact hb1)
      simp [m3] at this
    have := (List.subperm_of_subset l1 hsub).length_le
    rw [List.length_erase_of_mem (List.mem_map_of_mem hx), List.length_map] at this
    omega
  obtain ⟨net, e2, h2⟩ := confStubs_returns F (stubs := stubsOf d) (zeros := zerosOf d) (nodes := List.length d)
    ⟨_, _, h1, ⟨fun _ _ h => h.elim, fun _ _ _ => rfl⟩, fun _ _ h => h.elim, fun a ha => .inr ha, fun a ha => ha⟩ hlen
    (by omega) hroom hperm (by rw [toPairs_flatE]; exact hone) (by rw [toPairs_flatE]; exact hdiag) []
  refine ⟨⟨[], flatE E, [], [], []⟩, net, ?_, ?_⟩
  · simp only [singleLayerConf, e1]; exact e2
  · rw [toPairs_flatE] at h2
    obtain ⟨S, R', h3, h4, h5, h6, h7⟩ := h2
    refine F.congr h3 (fun a => ?_) (fun a b => ?_)
    · rw [← mem_stubs_zeros]
      constructor
      · exact h6 a
      · rintro (ha | ha)
        · rw [← List.count_pos_iff, count_stubsOf hn] at ha
          obtain ⟨L, -, l2, l3⟩ := hR.degree a
          have hL : L ≠ [] := by
            rintro rfl
            rw [← l3] at ha; simp at ha
          obtain ⟨b, hb⟩ := List.exists_mem_of_ne_nil _ hL
          exact h5 a b ((hE a b).1 ((l2 b).1 hb))
        · exact h7 a ha
    · by_cases hl : 0 < cnt (srt a b) E
      · rw [h4.1 a b hl, (hE a b).2 hl]
      · rw [h4.2 a b hl]
        rcases hR.weights a b with e | e
        · exact e.symm
        · exact absurd ((hE a b).1 e) hl

end

end Pymnet
