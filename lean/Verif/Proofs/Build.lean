import Verif.Model.Transforms
import Verif.Spec.Transforms
import Verif.Proofs.History

/-! Networks under construction: what each public call adds to the content. -/

set_option linter.unusedSectionVars false
set_option linter.unusedSimpArgs false

namespace Pymnet

open Py

theorem forE_ok {σ β : Type} {f : σ → β → Except Err σ} {P : List β → σ → Prop} (l : List β) {s : σ} (h0 : P [] s)
    (hstep : ∀ pre b post s, l = pre ++ b :: post → P pre s → ∃ s', f s b = .ok s' ∧ P (pre ++ [b]) s') :
    ∃ s', forE f l s = .ok s' ∧ P l s' := by
  have key : ∀ (post pre : List β) (s : σ), l = pre ++ post → P pre s → ∃ s', forE f post s = .ok s' ∧ P l s' := by
    intro post
    induction post with
    | nil => intro pre s hl hp; simp at hl; subst hl; exact ⟨s, rfl, hp⟩
    | cons b post ih =>
      intro pre s hl hp
      obtain ⟨s1, h1, h2⟩ := hstep pre b post s hl hp
      obtain ⟨s2, h3, h4⟩ := ih (pre ++ [b]) s1 (by simp [hl]) h2
      exact ⟨s2, by simp only [forE, h1]; exact h3, h4⟩
  exact key l [] s rfl h0

theorem Outcome.toExcept_ok {σ : Type} {r : Outcome σ} (h : r.2 = none) : r.toExcept = .ok r.1 := by
  simp [Outcome.toExcept, h]

variable {α W : Type} [DecidableEq α] [DecidableEq W]

/-- A network under construction and its content. -/
structure Built (m : MNet α W) (d : Nat) (z : W) (dir al : Bool)
    (S : Nat → α → Prop) (NL : List α → Prop) (R : List α → List α → W) : Prop where
  reach : ∃ ops, m = (MNet.init d z dir al).run ops
  sl : ∀ k x, m.inSlice k x ↔ S k x
  nl : 1 ≤ d → al = false → ∀ n t, t.length = d → (m.onLayer n (.ofList t) ↔ NL (n :: t))
  rd : ∀ a b, m.reads a b = R a b

namespace Built

variable {m : MNet α W} {d : Nat} {z : W} {dir al : Bool}
  {S S' : Nat → α → Prop} {NL NL' : List α → Prop} {R R' : List α → List α → W}

theorem inv (h : Built m d z dir al S NL R) : m.Inv := by
  obtain ⟨ops, rfl⟩ := h.reach; exact MNet.run_inv (MNet.init_inv ..) ops

theorem params (h : Built m d z dir al S NL R) :
    m.aspects = d ∧ m.directed = dir ∧ m.noEdge = z ∧ m.fic = (decide (d = 0) || al) := by
  obtain ⟨ops, rfl⟩ := h.reach
  obtain ⟨h1, h2, h3, h4⟩ := MNet.run_params (MNet.init_inv d z dir al) (ops := ops)
  refine ⟨h1, h2, h3, h4.trans ?_⟩
  simp only [MNet.init]; split <;> simp_all

theorem congr (h : Built m d z dir al S NL R) (hS : ∀ k x, S k x ↔ S' k x) (hN : ∀ nl, NL nl ↔ NL' nl)
    (hR : ∀ a b, R a b = R' a b) : Built m d z dir al S' NL' R' :=
  ⟨h.reach, fun k x => (h.sl k x).trans (hS k x), fun h1 h2 n t ht => (h.nl h1 h2 n t ht).trans (hN _),
    fun a b => (h.rd a b).trans (hR a b)⟩

theorem anyNL (h : Built m d z dir true S NL R) : Built m d z dir true S NL' R :=
  ⟨h.reach, h.sl, fun _ h2 => (nomatch h2), h.rd⟩

theorem init (d : Nat) (z : W) (dir al : Bool) :
    Built (MNet.init d z dir al : MNet α W) d z dir al (fun _ _ => False) (fun _ => False) (fun _ _ => z) := by
  refine ⟨⟨[], rfl⟩, fun k x => ?_, fun _ _ n t _ => ?_, fun a b => ?_⟩
  · exact iff_of_false (MNet.init_inSlice _ _ _ _ _ _) id
  · simp [MNet.init, MNet.onLayer]
  · simp [MNet.init, MNet.reads, MNet.lk, get2]

theorem reach_step (h : Built m d z dir al S NL R) (op : Op α W) :
    ∃ ops, (m.step op).1 = (MNet.init d z dir al).run ops := by
  obtain ⟨ops, rfl⟩ := h.reach
  exact ⟨ops ++ [op], by rw [MNet.run_snoc]⟩

theorem reads_grow {m' : MNet α W} (g : MNet.Grows m m') (a b : List α) : m'.reads a b = m.reads a b := by
  obtain ⟨-, -, h3, -, h5, -⟩ := g.frame.fields
  simp [MNet.reads, MNet.lk, h3, h5]

theorem addNode (h : Built m d z dir al S NL R) (n : α) :
    ∃ m', (m.addNode n none).toExcept = .ok m' ∧
      Built m' d z dir al (fun k x => S k x ∨ (k = 0 ∧ x = n)) NL R := by
  have hi := h.inv.r
  have sp := MNet.addNode_spec m n none hi.slen
  refine ⟨_, Outcome.toExcept_ok (sp.2.2.2.2.2.2 (Or.inr (by simp))),
    h.reach_step (.addNode n none), fun k x => ?_, fun h1 h2 n' t ht => ?_, fun a b => ?_⟩
  · rw [sp.2.2.2.1, h.sl]; simp
  · rw [MNet.addNode_onLayer hi.slen, h.nl h1 h2 _ _ ht]; simp
  · rw [reads_grow (MNet.addNode_grows hi n none), h.rd]

theorem addNodeL (h : Built m d z dir al S NL R) (hd : 1 ≤ d) (ha : al = false) (n : α) (t : List α)
    (ht : t.length = d) : ∃ m', (m.addNode n (some (.ofList t))).toExcept = .ok m' ∧
      Built m' d z dir al (fun k x => S k x ∨ (n :: t)[k]? = some x) (fun nl => NL nl ∨ nl = n :: t) R := by
  have hi := h.inv.r
  have hp := h.params
  have hf : m.fic = false := by rw [hp.2.2.2, ha]; simp; omega
  have hA : m.Accepts (.ofList t) := MNet.accepts_ofList hf (by rw [hp.1]; exact hd) (by rw [hp.1]; exact ht)
  have sp := MNet.addNode_spec m n (some (.ofList t)) hi.slen
  refine ⟨_, Outcome.toExcept_ok (sp.2.2.2.2.2.2 (Or.inr (by intro L hL; cases hL; exact hA))),
    h.reach_step (.addNode n (some (.ofList t))), fun k x => ?_, fun h1 h2 n' t' ht' => ?_, fun a b => ?_⟩
  · rw [sp.2.2.2.1, h.sl]
    refine or_congr_right ?_
    cases k with
    | zero => simp [eq_comm]
    | succ k =>
      simp only [List.getElem?_cons_succ]
      constructor
      · rintro (⟨h1, -⟩ | ⟨L, hL, -, -, -, h5⟩)
        · cases h1
        · cases hL; rw [MNet.ofList_toList] at h5; exact h5
      · intro hx
        refine Or.inr ⟨_, rfl, MNet.considers_of_accepts hA, by omega, ?_, by rw [MNet.ofList_toList]; exact hx⟩
        have := (List.getElem?_eq_some_iff.1 hx).1
        rw [hp.1]; omega
  · rw [MNet.addNode_onLayer hi.slen, h.nl h1 h2 _ _ ht']
    refine or_congr_right ?_
    constructor
    · rintro ⟨rfl, e, -⟩
      simp only [Option.some.injEq] at e
      rw [MNet.ofList_inj e]
    · intro e; cases e; exact ⟨rfl, rfl, hA⟩
  · rw [reads_grow (MNet.addNode_grows hi n _), h.rd]

theorem addLayer (h : Built m d z dir al S NL R) (x : α) {a : Nat} (ha : a ≤ d) :
    ∃ m', (m.addLayer x a).toExcept = .ok m' ∧
      Built m' d z dir al (fun k y => S k y ∨ (k = a ∧ y = x)) NL R := by
  have hi := h.inv.r
  have hp := h.params
  refine ⟨_, Outcome.toExcept_ok ((MNet.addLayer_err hi x a).2 (by rw [hp.1]; exact ha)),
    h.reach_step (.addLayer x a), fun k y => ?_, fun h1 h2 n' t ht => ?_, fun u v => ?_⟩
  · rw [MNet.addLayer_inSlice hi, h.sl, hp.1]; simp [ha]
  · rw [MNet.addLayer_onLayer hi, h.nl h1 h2 _ _ ht]
  · rw [reads_grow (MNet.addLayer_grows hi x a), h.rd]

theorem setItem (h : Built m d z dir al S NL R) {item u v : List α} (hadr : Spec.Addresses d item u v) (w : W)
    (hok : dir = false → u = v → w = z → R u v = z) :
    ∃ m', (m.setItem item w).toExcept = .ok m' ∧
      Built m' d z dir al (fun k x => S k x ∨ u[k]? = some x ∨ v[k]? = some x)
        (fun nl => NL nl ∨ nl = u ∨ nl = v)
        (fun a b => if (a = u ∧ b = v) ∨ (dir = false ∧ a = v ∧ b = u) then w else R a b) := by
  have hi := h.inv
  have hp := h.params
  have sp := MNet.setItem_spec hi (item := item) (u := u) (v := v) (by rw [hp.1]; exact hadr) w
  refine ⟨_, Outcome.toExcept_ok (sp.1.trans (if_neg ?_)),
    h.reach_step (.setItem item w), fun k y => ?_, fun h1 h2 n' t ht => ?_, fun a b => ?_⟩
  · rintro ⟨e1, e2, e3, e4⟩
    rw [hp.2.2.1] at e1; rw [hp.2.1] at e2
    have := hok e2 e3 e1
    rw [← h.rd, ← hp.2.2.1, MNet.reads_eq_noEdge hi.l] at this
    rw [this] at e4; cases e4
  · rw [sp.2.2.2.2.2.2.2.2.1, h.sl]
  · rw [sp.2.2.2.2.2.2.2.2.2, h.nl h1 h2 _ _ ht]
    refine or_congr_right ?_
    have hf : m.fic = false := by rw [hp.2.2.2, h2]; simp; omega
    constructor
    · rintro ⟨-, s, e, hs⟩
      rw [MNet.ofList_inj e]
      rcases hs with rfl | rfl
      · exact Or.inl rfl
      · exact Or.inr rfl
    · rintro (e | e)
      · exact ⟨hf, t, rfl, Or.inl e.symm⟩
      · exact ⟨hf, t, rfl, Or.inr e.symm⟩
  · unfold MNet.reads
    rw [sp.2.2.2.2.2.2.1, sp.2.2.2.2.1]
    have hs : m.Same u v a b ↔ ((a = u ∧ b = v) ∨ (dir = false ∧ a = v ∧ b = u)) := by
      unfold MNet.Same; rw [hp.2.1]
    rw [hp.2.2.1]
    by_cases hc : (a = u ∧ b = v) ∨ (dir = false ∧ a = v ∧ b = u)
    · rw [if_pos hc, if_pos (hs.2 hc)]; split <;> simp_all
    · rw [if_neg hc, if_neg (fun h' => hc (hs.1 h'))]
      have := h.rd a b
      unfold MNet.reads at this; rw [hp.2.2.1] at this; exact this

/-! ### Loops -/

theorem addNodes (h : Built m d z dir al S NL R) {β : Type} (f : β → α) (l : List β) :
    ∃ m', forE (fun (m : MNet α W) y => (m.addNode (f y) none).toExcept) l m = .ok m' ∧
      Built m' d z dir al (fun k x => S k x ∨ (k = 0 ∧ ∃ y ∈ l, x = f y)) NL R := by
  refine forE_ok (P := fun pre m' => Built m' d z dir al (fun k x => S k x ∨ (k = 0 ∧ ∃ y ∈ pre, x = f y)) NL R) l
    (h.congr (by simp) (by simp) (by simp)) ?_
  intro pre b post m1 _ h1
  obtain ⟨m2, e, h2⟩ := h1.addNode (f b)
  refine ⟨m2, e, h2.congr (fun k x => ?_) (fun _ => Iff.rfl) (fun _ _ => rfl)⟩
  simp only [List.mem_append, List.mem_singleton, or_and_right, exists_or, exists_eq_left, and_or_left, or_assoc]

theorem addNodeLs (h : Built m d z dir al S NL R) (hd : 1 ≤ d) (ha : al = false) {β : Type} (f : β → List α)
    (l : List β) (hl : ∀ y ∈ l, (f y).length = d + 1) {g : MNet α W → β → Except Err (MNet α W)}
    (hg : ∀ m y n t, y ∈ l → f y = n :: t → g m y = (m.addNode n (some (.ofList t))).toExcept) :
    ∃ m', forE g l m = .ok m' ∧
      Built m' d z dir al (fun k x => S k x ∨ ∃ y ∈ l, (f y)[k]? = some x) (fun nl => NL nl ∨ ∃ y ∈ l, nl = f y) R := by
  refine forE_ok (P := fun pre m' => Built m' d z dir al (fun k x => S k x ∨ ∃ y ∈ pre, (f y)[k]? = some x)
    (fun nl => NL nl ∨ ∃ y ∈ pre, nl = f y) R) l (h.congr (by simp) (by simp) (by simp)) ?_
  intro pre b post m1 hpre h1
  have hb : b ∈ l := by rw [hpre]; simp
  have hlb := hl b hb
  obtain ⟨n, t, e⟩ : ∃ n t, f b = n :: t := by
    match f b, hlb with
    | n :: t, _ => exact ⟨n, t, rfl⟩
  obtain ⟨m2, e2, h2⟩ := h1.addNodeL hd ha n t (by rw [e] at hlb; simpa using hlb)
  refine ⟨m2, (hg m1 b n t hb e).trans e2, h2.congr (fun k x => ?_) (fun _ => ?_) (fun _ _ => rfl)⟩
  · simp only [List.mem_append, List.mem_singleton, or_and_right, exists_or, exists_eq_left, e, or_assoc]
  · simp only [List.mem_append, List.mem_singleton, or_and_right, exists_or, exists_eq_left, e, or_assoc]

theorem addLayers (h : Built m d z dir al S NL R) {a : Nat} (ha : a ≤ d) {β : Type} (f : β → α) (p : β → Prop)
    (l : List β) {g : MNet α W → β → Except Err (MNet α W)}
    (hg : ∀ m y, p y → g m y = (m.addLayer (f y) a).toExcept) (hg' : ∀ m y, ¬ p y → g m y = .ok m) :
    ∃ m', forE g l m = .ok m' ∧
      Built m' d z dir al (fun k x => S k x ∨ (k = a ∧ ∃ y ∈ l, p y ∧ x = f y)) NL R := by
  refine forE_ok (P := fun pre m' => Built m' d z dir al
    (fun k x => S k x ∨ (k = a ∧ ∃ y ∈ pre, p y ∧ x = f y)) NL R) l
    (h.congr (by simp) (by simp) (by simp)) ?_
  intro pre b post m1 _ h1
  by_cases hp : p b
  · obtain ⟨m2, e, h2⟩ := h1.addLayer (f b) ha
    refine ⟨m2, (hg m1 b hp).trans e, h2.congr (fun k x => ?_) (fun _ => Iff.rfl) (fun _ _ => rfl)⟩
    simp only [List.mem_append, List.mem_singleton, or_and_right, exists_or, exists_eq_left, and_or_left, or_assoc, hp,
      true_and]
  · refine ⟨m1, hg' m1 b hp, h1.congr (fun k x => ?_) (fun _ => Iff.rfl) (fun _ _ => rfl)⟩
    simp only [List.mem_append, List.mem_singleton, or_and_right, exists_or, exists_eq_left, and_or_left, hp,
      false_and, or_false]

/-- A loop of writes none of which raises: every written link reads the value of some write to it. -/
theorem setItems (h : Built m d z dir al S NL R) {β : Type} (l : List β) (p : β → Prop) (u v : β → List α)
    (w : β → W) {g : MNet α W → β → Except Err (MNet α W)}
    (hg : ∀ m y, y ∈ l → p y → ∃ item, Spec.Addresses d item (u y) (v y) ∧ g m y = (m.setItem item (w y)).toExcept)
    (hg' : ∀ m y, y ∈ l → ¬ p y → g m y = .ok m) (hw : ∀ y ∈ l, p y → dir = false → u y = v y → w y ≠ z) :
    ∃ m' R', forE g l m = .ok m' ∧
      Built m' d z dir al (fun k x => S k x ∨ ∃ y ∈ l, p y ∧ ((u y)[k]? = some x ∨ (v y)[k]? = some x))
        (fun nl => NL nl ∨ ∃ y ∈ l, p y ∧ (nl = u y ∨ nl = v y)) R' ∧
      ∀ a b, (∃ y ∈ l, p y ∧ ((a = u y ∧ b = v y) ∨ (dir = false ∧ a = v y ∧ b = u y)) ∧ R' a b = w y) ∨
        ((∀ y ∈ l, p y → ¬ ((a = u y ∧ b = v y) ∨ (dir = false ∧ a = v y ∧ b = u y))) ∧ R' a b = R a b) := by
  have := forE_ok (f := g) (P := fun pre m' => ∃ R',
      Built m' d z dir al (fun k x => S k x ∨ ∃ y ∈ pre, p y ∧ ((u y)[k]? = some x ∨ (v y)[k]? = some x))
        (fun nl => NL nl ∨ ∃ y ∈ pre, p y ∧ (nl = u y ∨ nl = v y)) R' ∧
      ∀ a b, (∃ y ∈ pre, p y ∧ ((a = u y ∧ b = v y) ∨ (dir = false ∧ a = v y ∧ b = u y)) ∧ R' a b = w y) ∨
        ((∀ y ∈ pre, p y → ¬ ((a = u y ∧ b = v y) ∨ (dir = false ∧ a = v y ∧ b = u y))) ∧ R' a b = R a b)) l
    (s := m) ⟨R, h.congr (by simp) (by simp) (by simp), fun a b => Or.inr ⟨by simp, rfl⟩⟩ ?_
  · obtain ⟨m', h1, R', h2, h3⟩ := this
    exact ⟨m', R', h1, h2, h3⟩
  intro pre b post m1 hpre ⟨R1, h1, h1r⟩
  have hb : b ∈ l := by rw [hpre]; simp
  by_cases hp : p b
  · obtain ⟨item, hi1, hi2⟩ := hg m1 b hb hp
    obtain ⟨m2, e, h2⟩ := h1.setItem hi1 (w b) (fun h1 h2 h3 => absurd h3 (hw b hb hp h1 h2))
    refine ⟨m2, hi2.trans e, _, h2.congr (fun k x => ?_) (fun _ => ?_) (fun _ _ => rfl), fun a c => ?_⟩
    · simp only [List.mem_append, List.mem_singleton, or_and_right, exists_or, exists_eq_left, hp, true_and, or_assoc]
    · simp only [List.mem_append, List.mem_singleton, or_and_right, exists_or, exists_eq_left, hp, true_and, or_assoc]
    · by_cases hc : (a = u b ∧ c = v b) ∨ (dir = false ∧ a = v b ∧ c = u b)
      · exact Or.inl ⟨b, by simp, hp, hc, if_pos hc⟩
      · rw [if_neg hc]
        rcases h1r a c with ⟨y, y1, y2, y3, y4⟩ | ⟨y1, y2⟩
        · exact Or.inl ⟨y, by simp [y1], y2, y3, y4⟩
        · refine Or.inr ⟨fun y hy hpy => ?_, y2⟩
          simp only [List.mem_append, List.mem_singleton] at hy
          rcases hy with hy | rfl
          · exact y1 y hy hpy
          · exact hc
  · refine ⟨m1, hg' m1 b hb hp, R1, h1.congr (fun k x => ?_) (fun _ => ?_) (fun _ _ => rfl), fun a c => ?_⟩
    · simp only [List.mem_append, List.mem_singleton, or_and_right, exists_or, exists_eq_left, hp, false_and, or_false]
    · simp only [List.mem_append, List.mem_singleton, or_and_right, exists_or, exists_eq_left, hp, false_and, or_false]
    · rcases h1r a c with ⟨y, y1, y2⟩ | ⟨y1, y2⟩
      · exact Or.inl ⟨y, by simp [y1], y2⟩
      · refine Or.inr ⟨fun y hy hpy => ?_, y2⟩
        simp only [List.mem_append, List.mem_singleton] at hy
        rcases hy with hy | rfl
        · exact y1 y hy hpy
        · exact absurd hpy hp

theorem lengths (h : Built m d z dir al S NL R) : m.slices.length = d + 1 := by
  rw [h.inv.r.slen, h.params.1]

/-- What the user sees. -/
theorem looks (h : Built m d z dir al S NL R) (hal : d = 0 → al = true)
    (hN : al = false → ∀ nl, NL nl → nl.length = d + 1) :
    Spec.Looks m d z dir al S
      (fun nl => if al = true then Spec.AllNodeLayers d S nl else NL nl) R := by
  have hi := h.inv
  have hp := h.params
  have hal' : (decide (d = 0) || al) = al := by
    cases al with
    | true => simp
    | false => simp; intro h0; cases hal h0
  refine ⟨hp.1, hp.2.1, hp.2.2.1, by rw [hp.2.2.2, hal'], h.reach, ?_, ⟨MNet.nodeLayers_nodup hi.r, ?_⟩, ?_⟩
  · intro a ha
    have hl : a < m.slices.length := by rw [h.lengths]; omega
    refine ⟨m.slices[a], by simp [MNet.getLayers, hl], hi.r.snodup _ (by simp), fun x => ?_⟩
    rw [← h.sl]; unfold MNet.inSlice; simp [hl]
  · intro nl
    rw [MNet.mem_nodeLayers hi.r, hp.2.2.2, hal', hp.1]
    cases hal2 : al with
    | true =>
      simp only [if_true]
      rw [← MNet.reg_iff hi.r, MNet.Reg, hp.1, Spec.AllNodeLayers]
      simp only [h.sl]
    | false =>
      have hd : 1 ≤ d := by
        rcases Nat.eq_zero_or_pos d with h0 | h0
        · rw [hal h0] at hal2; cases hal2
        · exact h0
      simp only [Bool.false_eq_true, if_false]
      constructor
      · rintro ⟨hl, n, t, rfl, ho⟩
        exact (h.nl hd hal2 n t (by simpa using hl)).1 ho
      · intro hn
        have hl := hN hal2 nl hn
        match nl, hl with
        | n :: t, hl => exact ⟨hl, n, t, rfl, (h.nl hd hal2 n t (by simpa using hl)).2 hn⟩
  · intro item u v ha
    have hl := MNet.getLink_interleave m (u := u) (v := v)
      (by rw [ha.1, ha.2.1]) (by rintro rfl; simp [Spec.Addresses] at ha)
    rw [h.rd] at hl
    exact View.getItem_addresses (v := m.view)
      (by change Spec.Addresses m.aspects _ _ _; rw [hp.1]; exact ha) hl

end Built

end Pymnet
