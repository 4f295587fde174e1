import Verif.Model.Conf

/-!
Model of `conf_overlaps` (`/repo/pymnet/models.py` 514-705). The conventions are those of Model/Conf: random outcomes are
arguments, and the list `stubs` is kept as the list of its pairs. The network `net_temp` is a parameter `T` in the parts
that only read and write its links.
-/

namespace Pymnet.Models

open Py

/-- `s.remove(x)` for the elements of a list, one after the other -/
def removes {β : Type} [DecidableEq β] : List β → List β → Except Err (List β)
  | s, [] => .ok s
  | s, x :: t => if x ∈ s then removes (s.erase x) t else .error .keyError

/-- `s.add(x)` for the elements of a list -/
def adds {β : Type} [DecidableEq β] (s l : List β) : List β := l.foldl sadd s

variable {α W σ : Type} [DecidableEq α] [DecidableEq W] [LinearOrder α] [Zero W] [One W]

/-- State of the loop that links the stubs. -/
structure OFound (σ α : Type) where
  net : σ
  used : List (α × α)
  eti : Dict (α × α) (List Nat)
  multi : List (α × α)
  taken : List (α × α)
  selfs : Dict α (List Nat)

/-- the body of the loop that links the stubs (models.py 582-595) -/
def ovLink (T : Target σ α W) (f : OFound σ α) (x : (α × α) × Nat) : Except Err (OFound σ α) :=
  let q := srt x.1.1 x.1.2
  let eti := appendAt f.eti q x.2
  if q.1 = q.2 then .ok ⟨f.net, f.used, eti, f.multi, f.taken, appendAt f.selfs q.1 x.2⟩
  else
    match T.get f.net q.1 q.2 with
    | .error e => .error e
    | .ok w =>
      if w ≠ 0 then .ok ⟨f.net, f.used, eti, sadd f.multi q, f.taken, f.selfs⟩
      else if q ∈ f.used then .ok ⟨f.net, f.used, eti, f.multi, sadd f.taken q, f.selfs⟩
      else
        match T.set f.net q.1 q.2 1 with
        | .error e => .error e
        | .ok net => .ok ⟨net, sadd f.used q, eti, f.multi, f.taken, f.selfs⟩

/-- State of the repairs. -/
structure OWork (σ α : Type) where
  net : σ
  used : List (α × α)
  pairs : List (α × α)
  eti : Dict (α × α) (List Nat)
  draws : List (Nat × Nat)

/-- the attempt to remove the self-link of `node` at position `si` (models.py 600-626) -/
def ovSelfTry (T : Target σ α W) (multi taken : List (α × α)) (node : α) (si : Nat) (w : OWork σ α)
    (e : Nat × Nat) (p1 p2 : α × α) : Except Err (Option (OWork σ α)) :=
  let q := srt p1.1 p1.2
  let r := srt p2.1 p2.2
  let new := [srt node q.1, srt node r.1, srt q.2 r.2]
  if [node, p1.1, p1.2, p2.1, p2.2].Nodup then
    if q ∉ multi ∧ r ∉ multi ∧ q ∉ taken ∧ r ∉ taken then
      if ∀ k ∈ new, k ∉ w.used then
        match writes T [(q, 0), (r, 0), ((node, q.1), 1), ((node, r.1), 1), ((q.2, r.2), 1)] w.net with
        | .error e => .error e
        | .ok net =>
          match removes w.used [q, r] with
          | .error e => .error e
          | .ok used =>
            let pairs := ((w.pairs.set si (srt q.2 r.2)).set e.1 (srt node q.1)).set e.2 (srt node r.1)
            .ok (some ⟨net, adds used new, pairs, w.eti, w.draws⟩)
      else .ok none
    else .ok none
  else .ok none

/-- the body of the loops over the self-links (models.py 597-626) -/
def ovSelf (T : Target σ α W) (multi taken : List (α × α)) (node : α) (w : OWork σ α) (si : Nat) :
    Except Stop (OWork σ α) :=
  match retry w.pairs (ovSelfTry T multi taken node si w) w.draws with
  | .error e => .error e
  | .ok (w, draws) => .ok { w with draws }

/-- the attempt to remove two copies of the multiple link `m` (models.py 632-665) -/
def ovMultiTry (T : Target σ α W) (multi taken : List (α × α)) (m : α × α) (w : OWork σ α) (e : Nat × Nat)
    (p1 p2 : α × α) : Except Err (Option (OWork σ α)) :=
  let q := srt p1.1 p1.2
  let r := srt p2.1 p2.2
  let new := [srt m.1 q.1, srt m.2 q.2, srt m.1 r.1, srt m.2 r.2]
  if [m.1, m.2, p1.1, p1.2, p2.1, p2.2].Nodup then
    if q ∉ multi ∧ r ∉ multi ∧ q ∉ taken ∧ r ∉ taken then
      if ∀ k ∈ new, k ∉ w.used then
        match Dict.get w.eti m with
        | none => .error .keyError
        | some is =>
          match writes T (if is.length = 2 then [(m, 0)] else []) w.net with
          | .error e => .error e
          | .ok net =>
            match removes w.used (if is.length = 2 then [m] else []) with
            | .error e => .error e
            | .ok used =>
              match writes T [(q, 0), (r, 0), ((m.1, q.1), 1), ((m.2, q.2), 1), ((m.1, r.1), 1), ((m.2, r.2), 1)] net with
              | .error e => .error e
              | .ok net =>
                match is.getLast?, is.dropLast.getLast? with
                | some i, some j =>
                  match removes used [q, r] with
                  | .error e => .error e
                  | .ok used =>
                    let pairs := (((w.pairs.set (min i j) (srt m.1 q.1)).set (max i j) (srt m.2 q.2)).set e.1
                      (srt m.1 r.1)).set e.2 (srt m.2 r.2)
                    .ok (some ⟨net, adds used new, pairs, Dict.set w.eti m is.dropLast.dropLast, w.draws⟩)
                | _, _ => .error .indexError
      else .ok none
    else .ok none
  else .ok none

/-- the body of the loop `for dummy in range(...)` (models.py 629-665) -/
def ovMulti (T : Target σ α W) (multi taken : List (α × α)) (m : α × α) (w : OWork σ α) (_dummy : Nat) :
    Except Stop (OWork σ α) :=
  match retry w.pairs (ovMultiTry T multi taken m w) w.draws with
  | .error e => .error e
  | .ok (w, draws) => .ok { w with draws }

/-- the body of the loop over the multiple links (models.py 628-665) -/
def ovMultis (T : Target σ α W) (multi taken : List (α × α)) (w : OWork σ α) (m : α × α) : Except Stop (OWork σ α) :=
  match Dict.get w.eti m with
  | none => .error (.raised .keyError)
  | some is => forS (ovMulti T multi taken m) (List.range (is.length / 2)) w

/-- the attempt to remove the taken link `m` at position `si` (models.py 671-699) -/
def ovTakenTry (T : Target σ α W) (taken : List (α × α)) (m : α × α) (si : Nat) (w : OWork σ α)
    (e : Nat × Nat) (p1 p2 : α × α) : Except Err (Option (OWork σ α)) :=
  let q := srt p1.1 p1.2
  let r := srt p2.1 p2.2
  let new := [srt m.1 q.1, srt m.2 r.1, srt q.2 r.2]
  if [m.1, m.2, p1.1, p1.2, p2.1, p2.2].Nodup then
    if q ∉ taken ∧ r ∉ taken then
      if ∀ k ∈ new, k ∉ w.used then
        match assertOnes T w.net [q, r] with
        | .error e => .error e
        | .ok _ =>
          match writes T [(q, 0), (r, 0), ((m.1, q.1), 1), ((m.2, r.1), 1), ((q.2, r.2), 1)] w.net with
          | .error e => .error e
          | .ok net =>
            match removes w.used [q, r] with
            | .error e => .error e
            | .ok used =>
              let pairs := ((w.pairs.set si (srt m.1 q.1)).set e.1 (srt m.2 r.1)).set e.2 (srt q.2 r.2)
              .ok (some ⟨net, adds used new, pairs, w.eti, w.draws⟩)
      else .ok none
    else .ok none
  else .ok none

/-- the body of the loop over the positions of a taken link (models.py 668-699) -/
def ovTaken (T : Target σ α W) (taken : List (α × α)) (m : α × α) (w : OWork σ α) (si : Nat) :
    Except Stop (OWork σ α) :=
  match retry w.pairs (ovTakenTry T taken m si w) w.draws with
  | .error e => .error e
  | .ok (w, draws) => .ok { w with draws }

/-- the body of the loop over the taken links (models.py 667-699) -/
def ovTakens (T : Target σ α W) (taken : List (α × α)) (w : OWork σ α) (m : α × α) : Except Stop (OWork σ α) :=
  match Dict.get w.eti m with
  | none => .error (.raised .keyError)
  | some is => forS (ovTaken T taken m) is w

/-- the repairs of one layer combination (models.py 597-699) -/
def ovRepair (T : Target σ α W) (rnd : ConfRandom α) (pairs : List (α × α)) (f : OFound σ α) :
    Except Stop (OWork σ α) :=
  match forS (fun w x => forS (ovSelf T f.multi f.taken x.1) x.2 w) f.selfs ⟨f.net, f.used, pairs, f.eti, rnd.draws⟩ with
  | .error e => .error e
  | .ok w =>
    if ¬ rnd.multiOrder.Perm f.multi then .error .more
    else
      match forS (ovMultis T f.multi f.taken) rnd.multiOrder w with
      | .error e => .error e
      | .ok w =>
        if ¬ rnd.takenOrder.Perm f.taken then .error .more
        else forS (ovTakens T f.taken) rnd.takenOrder w

/-- one layer combination from the assertions to the end of the repairs (models.py 576-699); returns `net_temp` and
`used_edges`. -/
def ovStubs (T : Target σ α W) (nstubs nodes : Nat) (stubs : List α) (rnd : ConfRandom α) (used : List (α × α)) (s : σ) :
    Except Stop (σ × List (α × α)) :=
  if nstubs % 2 ≠ 0 then .error (.raised .assertionError)
  else if ¬ nstubs ≤ nodes * (nodes - 1) then .error (.raised .assertionError)
  else if ¬ rnd.shuffle.Perm stubs then .error .more
  else
    let pairs := toPairs rnd.shuffle
    match forE (ovLink T) pairs.zipIdx ⟨s, used, [], [], [], []⟩ with
    | .error e => .error (.raised e)
    | .ok f =>
      match ovRepair T rnd pairs f with
      | .error e => .error e
      | .ok w => .ok (w.net, w.used)

/-- `for layer in layer_comb: net[e[0],e[1],layer]=1` (models.py 702-703) -/
def ovCopy (comb : List α) (net : MPlex α W) (e : List α × W) : Except Err (MPlex α W) :=
  match e.1 with
  | a :: b :: _ => forE (fun net l => (net.setItem [a, b, l] 1).toExcept) comb net
  | _ => .error .indexError

/-- the body of the loop over the layer combinations (models.py 555-703) -/
def ovComb (rnd : List α → ConfRandom α) (st : MPlex α W × List (α × α)) (c : List α × Dict α Nat) :
    Except Stop (MPlex α W × List (α × α)) :=
  match stubsNodes (netTarget (W := W)) c.2 (MNet.init 0 0 false true) with
  | .error e => .error (.raised e)
  | .ok s =>
    match ovStubs netTarget (c.2.map Prod.snd).sum c.2.length s.2 (rnd c.1) st.2 s.1 with
    | .error e => .error e
    | .ok (temp, used) =>
      match temp.view.edges with
      | .error e => .error (.raised e)
      | .ok es =>
        match forE (ovCopy c.1) es st.1 with
        | .error e => .error (.raised e)
        | .ok net => .ok (net, used)

/-- `conf_overlaps` (models.py 514-705) with one coupling; `rnd` are the random outcomes of each layer combination. -/
def confOverlaps (degs : Dict (List α) (Dict α Nat)) (coupling : Coupling α W) (rnd : List α → ConfRandom α) :
    Except Stop (MPlex α W) :=
  match forS (ovComb rnd) degs (MPlex.init [coupling] false 0 true, []) with
  | .error e => .error e
  | .ok st => .ok st.1

end Pymnet.Models
