import Verif.Proofs.NetText
import Verif.Proofs.BuildM
import Verif.Proofs.Build
import Verif.Proofs.SubnetP2

/-! Networks built from entries (layer, from, to, weight). -/

set_option linter.unusedSectionVars false
set_option linter.unusedSimpArgs false

namespace Pymnet

open Py MPlex

variable {α W : Type} [DecidableEq α] [DecidableEq W] [Zero W]

/-- The nodes, layers, and nodes of layers of the entries. -/
def nodesOf (es : List (α × α × α × W)) (x : α) : Prop := ∃ e ∈ es, e.2.1 ≠ e.2.2.1 ∧ (x = e.2.1 ∨ x = e.2.2.1)
def layersOf (es : List (α × α × α × W)) (s : α) : Prop := ∃ e ∈ es, e.2.1 ≠ e.2.2.1 ∧ s = e.1
def onOf (es : List (α × α × α × W)) (x s : α) : Prop := ∃ e ∈ es, e.2.1 ≠ e.2.2.1 ∧ s = e.1 ∧ (x = e.2.1 ∨ x = e.2.2.1)

/-- The weights as a function of the tuple of elementary layers. -/
noncomputable def rdOf (dir : Bool) (es : List (α × α × α × W)) (t : List α) (i j : α) : W :=
  match t with
  | [s] => Spec.lastEntry dir es s i j
  | _ => 0

/-- The network holds what the entries say. -/
def Holds (p : MPlex α W) (c : Coupling α W) (dir al : Bool) (es : List (α × α × α × W)) : Prop :=
  BuiltX p [c] dir 0 al True (nodesOf es) (fun _ x => layersOf es x) (fun n t => ∃ s, t = [s] ∧ onOf es n s) (rdOf dir es)

theorem Holds.init (c : Coupling α W) (dir al : Bool) : Holds (MPlex.init [c] dir 0 al) c dir al [] := by
  refine (BuiltX.init [c] dir 0 al True).congr (fun x => ?_) (fun a x _ _ => ?_) (fun _ n s _ => ?_) (fun t i j ht => ?_)
  · simp [nodesOf]
  · simp [layersOf]
  · simp [onOf]
  · match t, ht with
    | [s], _ => rfl

theorem lastEntry_snoc (dir : Bool) (es : List (α × α × α × W)) (e : α × α × α × W) (s i j : α) :
    Spec.lastEntry dir (es ++ [e]) s i j =
      open Classical in if s = e.1 ∧ e.2.1 ≠ e.2.2.1 ∧ Spec.SameLink dir e.2.1 e.2.2.1 i j then e.2.2.2
        else Spec.lastEntry dir es s i j := by
  unfold Spec.lastEntry
  rw [List.foldl_append, List.foldl_cons, List.foldl_nil]
  by_cases h : s = e.1 ∧ e.2.1 ≠ e.2.2.1 ∧ Spec.SameLink dir e.2.1 e.2.2.1 i j
  · rw [if_pos h, if_pos h]
  · rw [if_neg h, if_neg h]

variable {p : MPlex α W} {c : Coupling α W} {dir al : Bool} {es : List (α × α × α × W)}

theorem Holds.skip (h : Holds p c dir al es) {l f t : α} (hft : f = t) (w : W) : Holds p c dir al (es ++ [(l, f, t, w)]) := by
  refine BuiltX.congr h (fun x => ?_) (fun a x _ _ => ?_) (fun _ n s _ => ?_) (fun u i j hu => ?_)
  · simp [nodesOf, or_and_right, exists_or, hft]
  · simp [layersOf, or_and_right, exists_or, hft]
  · simp [onOf, or_and_right, exists_or, hft]
  · match u, hu with
    | [s], _ =>
      change Spec.lastEntry dir es s i j = Spec.lastEntry dir (es ++ _) s i j
      rw [lastEntry_snoc, if_neg]
      rintro ⟨-, h, -⟩
      exact h hft

theorem Holds.set (h : Holds p c dir al es) {l f t : α} (hft : f ≠ t) {item : List α}
    (ha : Spec.Addresses 1 item [f, l] [t, l]) (w : W) :
    ∃ p', (p.setItem item w).toExcept = .ok p' ∧ Holds p' c dir al (es ++ [(l, f, t, w)]) := by
  classical
  obtain ⟨p', h1, h2⟩ := BuiltX.setItem h (by simp) (i := f) (j := t) (s := [l]) hft ha w
  refine ⟨p', h1, h2.congr (fun x => ?_) (fun a x a1 a2 => ?_) (fun _ n s _ => ?_) (fun u i j hu => ?_)⟩
  · simp [nodesOf, or_and_right, exists_or, hft]
  · have : a = 1 := by simp at a2; omega
    subst this
    simp [layersOf, or_and_right, exists_or, hft, eq_comm]
  · constructor
    · rintro (⟨s, rfl, e, he, h⟩ | ⟨rfl, h⟩)
      · exact ⟨s, rfl, e, by simp [he], h⟩
      · exact ⟨l, rfl, (l, f, t, w), by simp, hft, rfl, h⟩
    · rintro ⟨s, rfl, e, he, h3, h4, h5⟩
      rcases List.mem_append.1 he with he | he
      · exact Or.inl ⟨s, rfl, e, he, h3, h4, h5⟩
      · rw [List.mem_singleton.1 he] at h4 h5
        exact Or.inr ⟨by rw [h4], h5⟩
  · match u, hu with
    | [s], _ =>
      change _ = Spec.lastEntry dir (es ++ _) s i j
      rw [lastEntry_snoc]
      by_cases hc : s = l ∧ Spec.SameLink dir f t i j
      · rw [if_pos ⟨by rw [hc.1], hc.2⟩, if_pos ⟨hc.1, hft, hc.2⟩]
      · rw [if_neg (fun h => hc ⟨by simpa using h.1, h.2⟩), if_neg (fun h => hc ⟨h.1, h.2.2⟩)]
        rfl

/-- What the user sees. -/
theorem builtX_content {S LY : α → Prop} {on : α → α → Prop} {R : List α → α → α → W}
    (h : BuiltX p [c] dir 0 al True S (fun _ x => LY x) (fun n t => ∃ s, t = [s] ∧ on n s) R) : ∃ ops, p = afterP [c] dir 0 al ops ∧
    Spec.Content dir al ops S LY (fun x s => if al = true then S x ∧ LY s else on x s) (fun s i j => R [s] i j) := by
  obtain ⟨ops, h0, h1, h2, h3, h4, h5⟩ := h
  have hlay : ∀ s, Spec.HasLayer 1 al ops (.el s) ↔ LY s := by
    intro s
    rw [show LKey.el s = .ofList [s] from rfl, ← show [c].length = 1 from rfl, hasLayer_LYs h3]
    simp only [LYs, List.length_singleton, true_and]
    constructor
    · intro h; exact h 0 s rfl
    · intro h k x hx
      cases k with
      | zero => cases hx; exact h
      | succ k => simp at hx
  refine ⟨ops, h0, h2, hlay, fun x s => ?_, fun s i j => h5 [s] i j rfl, h1 trivial⟩
  constructor
  · rintro ⟨n, u, e, -, h⟩
    simp only [List.cons.injEq] at e
    obtain ⟨rfl, rfl⟩ := e
    rcases h with ⟨rfl, h, h'⟩ | ⟨rfl, h⟩
    · rw [if_pos rfl]; exact ⟨(h2 x).1 h, (hlay s).1 h'⟩
    · rw [if_neg (by simp)]
      obtain ⟨s', e, h⟩ := (h4 rfl x [s] rfl).1 h
      simp only [List.cons.injEq, and_true] at e
      rw [e]; exact h
  · intro h
    refine ⟨x, [s], rfl, rfl, ?_⟩
    cases al with
    | true => rw [if_pos rfl] at h; exact Or.inl ⟨rfl, (h2 x).2 h.1, (hlay s).2 h.2⟩
    | false => rw [if_neg (by simp)] at h; exact Or.inr ⟨rfl, (h4 rfl x [s] rfl).2 ⟨s, rfl, h⟩⟩

theorem Holds.content (h : Holds p c dir al es) : ∃ ops, p = afterP [c] dir 0 al ops ∧
    Spec.Content dir al ops (nodesOf es) (layersOf es)
      (fun x s => if al = true then nodesOf es x ∧ layersOf es s else onOf es x s) (Spec.lastEntry dir es) :=
  builtX_content h

/-- A self-link cannot be assigned. -/
theorem Holds.self (h : Holds p c dir al es) (f l : α) (w : W) : (p.setItem [f, f, l] w).toExcept = .error .keyError := by
  have hpar := BuiltX.params h (by simp)
  have hs := setItem_spec (BuiltX.pinv h (by simp)) (item := [f, f, l]) (i := f) (j := f) (s := [l]) (t := [l])
    (by rw [hpar.1]; exact ⟨rfl, rfl, Or.inr ⟨f, f, [l], rfl, rfl, rfl⟩⟩) w
  have := hs.1
  rw [if_neg (by simp)] at this
  unfold Outcome.toExcept
  rw [this]

/-! ### `read_edge_files` -/

theorem readEdgeFiles_ok {int : Text → Option α} {float : Text → Option W} {lines : List Text} {es : List (α × α × α × W)}
    (hl : List.Forall₂ (Spec.EdgeLine int float) lines es) {ignoreSelf : Bool}
    (hself : ignoreSelf = true ∨ ∀ e ∈ es, e.2.1 ≠ e.2.2.1) : ∀ {p : MPlex α W} {es0}, Holds p c dir al es0 →
    ∃ p', forE (readEdgeLine int float ignoreSelf) lines p = .ok p' ∧ Holds p' c dir al (es0 ++ es) := by
  induction hl with
  | nil => intro p es0 h; exact ⟨p, rfl, by simpa using h⟩
  | @cons line e lines es hle hls ih =>
    intro p es0 h
    obtain ⟨a, b, c', d, hf, h1, h2, h3, h4⟩ := hle
    have key : ∃ p', readEdgeLine int float ignoreSelf p line = .ok p' ∧ Holds p' c dir al (es0 ++ [e]) := by
      unfold readEdgeLine
      rw [words_fields hf]
      simp only [h1, h2, h3, h4]
      by_cases hft : e.2.1 = e.2.2.1
      · have : ignoreSelf = true := hself.elim id fun h => absurd hft (h e (by simp))
        rw [if_neg (by simp [this, hft])]
        exact ⟨p, rfl, h.skip hft e.2.2.2⟩
      · rw [if_pos (Or.inl hft)]
        exact h.set hft ⟨rfl, rfl, Or.inr ⟨_, _, [e.1], rfl, rfl, rfl⟩⟩ e.2.2.2
    obtain ⟨p', hp, hh⟩ := key
    obtain ⟨p'', hp', hh'⟩ := ih (hself.imp id fun h e he => h e (by simp [he])) hh
    refine ⟨p'', ?_, by simpa using hh'⟩
    rw [forE, hp]
    exact hp'

end Pymnet
