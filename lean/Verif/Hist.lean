import Verif.Init
import Verif.RequestsSpec
import Verif.LoadSpec
/-!
# Histories

Operations on the grid between which users look at it, and states reachable from `initialize` by any
sequence of them.
-/
namespace Dccrg
open Cfg
variable {n : Nat} {D W : Type} {g : Cfg}

/-! ## Access to cell data -/

/-- `operator[]` (dccrg.hpp:768-781). -/
def access (p : Proc n D W) (c : Nat) : Option D :=
  match p.data c with
  | some d => some d
  | none => match p.remote c with
    | some d => some d
    | none => match p.refinedData c with
      | some d => some d
      | none => p.unrefinedData c

/-- Assignment to data of a cell through `operator[]`, nothing happens if it returned a null pointer. -/
def write (p : Proc n D W) (c : Nat) (v : D) : Proc n D W :=
  if (p.data c).isSome then { p with data := fun x => if x = c then some v else p.data x }
  else if (p.remote c).isSome then { p with remote := fun x => if x = c then some v else p.remote x }
  else if (p.refinedData c).isSome then
    { p with refinedData := fun x => if x = c then some v else p.refinedData x }
  else if (p.unrefinedData c).isSome then
    { p with unrefinedData := fun x => if x = c then some v else p.unrefinedData x }
  else p

/-- `clear_refined_unrefined_data` (dccrg.hpp:5605-5622). -/
def clearRefined (p : Proc n D W) : Proc n D W :=
  { p with
    refinedData := fun _ => none
    unrefinedData := fun _ => none }

/-! ## Neighborhoods -/

/-- `default_neighborhood_id` (dccrg.hpp:99). -/
def defaultId : Int := -0xdcc

/-- Checks of given items in `add_neighborhood` (dccrg.hpp:6632-6666). -/
def itemOk (g : Cfg) (o : V3 Int) : Bool :=
  if g.hood > 0 then
    decide (∀ d, (o d).natAbs ≤ g.hood) && !decide (o 0 = 0 ∧ o 1 = 0 ∧ o 2 = 0)
  else
    decide (∀ d, (o d).natAbs ≤ 1) &&
      decide (((List.finRange 3).filter fun d => decide (o d = 0)).length = 2)

/-- `add_neighborhood` (dccrg.hpp:6546-6718) of process `i`. -/
def addHood (g : Cfg) (dflt : D) (maxTag : Nat) (i : Fin n) (p : Proc n D W) (id : Int)
    (items : List (V3 Int)) : Out (Bool × Proc n D W) :=
  if id = defaultId then .ok (false, p)
  else if (p.hoods.lookup id).isSome then .ok (false, p)
  else if items.all (itemOk g) = false then .ok (false, p)
  else if neighborsFound g { p with hoods := [(id, items)] } = false then .throws
  else if tagsFit g maxTag i { p with hoods := [(id, items)] } = false then .throws
  else .ok (true, { p with
    hoods := (id, items) :: p.hoods
    remote := fun c =>
      if c ∈ remoteBoundary g i p.owner (fun c => (p.data c).isSome) then
        some ((p.remote c).getD dflt) else p.remote c })

/-- `remove_neighborhood` (dccrg.hpp:6731-6766). -/
def removeHood (p : Proc n D W) (id : Int) : Proc n D W :=
  if id = defaultId then p else { p with hoods := p.hoods.filter fun h => h.1 != id }

/-- Items of a neighborhood, `none` if it does not exist. -/
def hoodFor (g : Cfg) (p : Proc n D W) (id : Int) : Option (List (V3 Int)) :=
  if id = defaultId then some (hoodOf g) else p.hoods.lookup id

/-- `update_copies_of_remote_neighbors` (dccrg.hpp:978-1014, 5101-5468): returned value and state on every
process. `.at` throws for a neighborhood that does not exist. -/
def updateRemote (g : Cfg) (maxTag : Nat) (id : Int) (s : Sys n D W) : Out (Fin n → Bool × Proc n D W) :=
  if ∃ i, (hoodFor g (s i) id).isNone then .throws
  else
    (transfer maxTag
      (fun p q => sendList g ((hoodFor g (s p) id).getD []) p (s p).owner
        (fun c => ((s p).data c).isSome) q)
      (fun q p => recvList g ((hoodFor g (s q) id).getD []) q (s q).owner
        (fun c => ((s q).data c).isSome) p)
      (fun p => (s p).data) (fun p => (s p).remote)).bind fun rem =>
    .ok fun i => (((s i).hoods.lookup id).isSome, { s i with remote := rem i })

/-! ## Operations -/

/-- Calls of the user. The first ones are made on one process, the rest on all processes. -/
inductive Op (n : Nat) (D W : Type) where
  | refine (i : Fin n) (c : Nat)
  | unrefine (i : Fin n) (c : Nat)
  | dontRefine (i : Fin n) (c : Nat)
  | dontUnrefine (i : Fin n) (c : Nat)
  | pin (i : Fin n) (c : Nat) (q : Int)
  | unpin (i : Fin n) (c : Nat)
  | unpinLocal (i : Fin n)
  | setWeight (i : Fin n) (c : Nat) (x : W)
  | write (i : Fin n) (c : Nat) (v : D)
  | clearRefined (i : Fin n)
  | unpinAll
  | update (id : Int)
  | addHood (id : Int) (items : List (V3 Int))
  | removeHood (id : Int)
  | stop (sorted : Bool)
  | balance (z : Fin n → Moves n)

/-- Replace state of one process. -/
def Sys.set (s : Sys n D W) (i : Fin n) (p : Proc n D W) : Sys n D W := fun j => if j = i then p else s j

/-- Replace requests of one process. -/
def Sys.ask (s : Sys n D W) (i : Fin n) (o : Out (Bool × Req)) : Out (Sys n D W) :=
  o.bind fun x => .ok (s.set i { s i with req := x.2 })

/-- Effect of an operation. -/
def step (g : Cfg) (dflt : D) (maxTag : Nat) (s : Sys n D W) : Op n D W → Out (Sys n D W)
  | .refine i c => s.ask i
    (refineCompletely g (exist (s i).owner) (fun c => ((s i).data c).isSome) (s i).req c)
  | .unrefine i c => s.ask i
    (unrefineCompletely g (exist (s i).owner) (fun c => ((s i).data c).isSome) (s i).req c)
  | .dontRefine i c => s.ask i (Dccrg.dontRefine g (exist (s i).owner) (s i).req c)
  | .dontUnrefine i c => s.ask i (Dccrg.dontUnrefine g (exist (s i).owner) (s i).req c)
  | .pin i c q => .ok (s.set i (Dccrg.pin g i (s i) c q).2)
  | .unpin i c => .ok (s.set i (Dccrg.unpin g i (s i) c).2)
  | .unpinLocal i => .ok (s.set i (Dccrg.unpinLocal g i (s i)).2)
  | .setWeight i c x => .ok (s.set i (Dccrg.setWeight g i (s i) c x).2)
  | .write i c v => .ok (s.set i (Dccrg.write (s i) c v))
  | .clearRefined i => .ok (s.set i (Dccrg.clearRefined (s i)))
  | .unpinAll => .ok fun i => Dccrg.unpinAll (s i)
  | .update id => (updateRemote g maxTag id s).bind fun r => .ok fun i => (r i).2
  | .addHood id items =>
    (Out.collect fun i => Dccrg.addHood g dflt maxTag i (s i) id items).bind fun r => .ok fun i => (r i).2
  | .removeHood id => .ok fun i => Dccrg.removeHood (s i) id
  | .stop sorted => (stopRefining g dflt maxTag sorted s).bind fun r => .ok fun i => (r i).1
  | .balance z => balanceLoad g dflt maxTag z s

/-- What the partitioner promises about its result; nothing for other operations. -/
def Op.Ok (s : Sys n D W) : Op n D W → Prop
  | .balance z => ∀ i, MovesOk (s i).owner z
  | _ => True

/-- Copy constructor (dccrg.hpp:309-446) of process `i`, from a grid with cell data of another type: owners, pins,
weights and neighborhoods are copied, cell data are default constructed and copies of remote neighbors allocated
(dccrg.hpp:7208-7252), requests for refinement and refined data aren't copied. It is assumed that geometry
can be copied. -/
def copyProc {D0 : Type} (g : Cfg) (dflt : D) (i : Fin n) (p : Proc n D0 W) : Proc n D W where
  owner := p.owner
  data c := (p.data c).map fun _ => dflt
  remote c := if c ∈ remoteBoundary g i p.owner (fun c => (p.data c).isSome) then some dflt else none
  req := ⟨[], [], [], []⟩
  refinedData _ := none
  unrefinedData _ := none
  pins := p.pins
  newPins := p.newPins
  weights := p.weights
  hoods := p.hoods

/-- Copy constructor on all processes. -/
def copyGrid {D0 : Type} (g : Cfg) (dflt : D) (s : Sys n D0 W) : Sys n D W := fun i => copyProc g dflt i (s i)

/-- States reachable from `initialize` or the copy constructor by any operations. -/
inductive Reachable {n : Nat} {W : Type} (g : Cfg) : {D : Type} → D → Nat → Sys n D W → Prop
  | init {D : Type} {dflt : D} {maxTag : Nat} {s : Sys n D W} :
      createGrid g n dflt maxTag = .ok s → Reachable g dflt maxTag s
  | step {D : Type} {dflt : D} {maxTag : Nat} {s s' : Sys n D W} (op : Op n D W) : Reachable g dflt maxTag s →
      op.Ok s → Dccrg.step g dflt maxTag s op = .ok s' → Reachable g dflt maxTag s'
  | copy {D D0 : Type} {dflt : D} {dflt0 : D0} {maxTag : Nat} {s : Sys n D0 W} : Reachable g dflt0 maxTag s →
      Reachable g dflt maxTag (copyGrid g dflt s)

/-! ## Invariant -/

/-- What holds in reachable states. -/
structure Inv (g : Cfg) (w : Owner n) (s : Sys n D W) : Prop where
  sys : SysOk g w s
  req : ∀ i, ReqOk g w (s i).req
  hoods : ∀ i j, (s i).hoods = (s j).hoods

/-- State of one process that can replace the current one. -/
structure LocalOk (g : Cfg) (w : Owner n) (i : Fin n) (p p' : Proc n D W) : Prop where
  owner : p'.owner = w
  placed : ∀ c, (p'.data c).isSome = true ↔ w c = some i
  pins : p'.pins = p.pins
  newPins : ∀ c, w c ≠ some i → p'.newPins c = none
  weights : ∀ c, w c ≠ some i → p'.weights c = none
  hoods : p'.hoods = p.hoods
  req : ReqOk g w p'.req

section
variable {w : Owner n} {s : Sys n D W}

theorem Inv.local (h : Inv g w s) (i : Fin n) : LocalOk g w i (s i) (s i) :=
  ⟨h.sys.owner i, h.sys.placed i, rfl, h.sys.newPins i, h.sys.weights i, rfl, h.req i⟩

theorem Sys.set_same (s : Sys n D W) (i : Fin n) (p : Proc n D W) : s.set i p i = p := if_pos rfl

theorem Sys.set_other (s : Sys n D W) {i j : Fin n} (h : j ≠ i) (p : Proc n D W) : s.set i p j = s j :=
  if_neg h

theorem Inv.set (h : Inv g w s) {i : Fin n} {p' : Proc n D W} (hp : LocalOk g w i (s i) p') :
    Inv g w (s.set i p') := by
  have hs := h.sys
  have hpins : ∀ j, (s.set i p' j).pins = (s j).pins := by
    intro j
    unfold Sys.set
    split
    · rename_i e; subst e; exact hp.pins
    · rfl
  have hhoods : ∀ j, (s.set i p' j).hoods = (s j).hoods := by
    intro j
    unfold Sys.set
    split
    · rename_i e; subst e; exact hp.hoods
    · rfl
  have hnew : ∀ j c, w c ≠ some j → (s.set i p' j).newPins c = none := by
    intro j
    unfold Sys.set
    split
    · rename_i e; subst e; exact hp.newPins
    · exact hs.newPins j
  refine ⟨⟨?_, hs.tiled, hs.balanced, ?_, ?_, ?_, hnew, ?_, ?_⟩, ?_, ?_⟩
  · intro j
    unfold Sys.set
    split
    · exact hp.owner
    · exact hs.owner j
  · intro j
    unfold Sys.set
    split
    · rename_i e; subst e; exact hp.placed
    · exact hs.placed j
  · intro j c hc
    rw [hpins]
    refine ⟨(hs.pins j c hc).1, hnew j c ?_⟩
    intro e; rw [exist_of e] at hc; cases hc
  · intro j k c; rw [hpins, hpins]; exact hs.pinsAgree j k c
  · intro j
    unfold Sys.set
    split
    · rename_i e; subst e; exact hp.weights
    · exact hs.weights j
  · intro j; rw [hhoods]; exact hs.hoods j
  · intro j
    unfold Sys.set
    split
    · rename_i e; subst e; exact hp.req
    · exact h.req j
  · intro j k; rw [hhoods, hhoods]; exact h.hoods j k

theorem ownLeaf_owner {i : Fin n} {p : Proc n D W} {c : Nat} (h : ownLeaf g i p c ≠ false) :
    p.owner c = some i := by
  have : ownLeaf g i p c = true := by simpa using h
  unfold ownLeaf at this
  rw [Bool.and_eq_true, decide_eq_true_eq] at this
  exact this.1

theorem LocalOk.pin {i : Fin n} {p0 p : Proc n D W} (h : LocalOk g w i p0 p) (c : Nat) (q : Int) :
    LocalOk g w i p0 (Dccrg.pin g i p c q).2 := by
  unfold Dccrg.pin
  split
  · exact h
  · rename_i hl
    have ho := ownLeaf_owner hl
    rw [h.owner] at ho
    split
    · split
      · exact h
      · refine ⟨h.owner, h.placed, h.pins, ?_, h.weights, h.hoods, h.req⟩
        intro x hx
        show (if x = c then _ else p.newPins x) = none
        rw [if_neg (by rintro rfl; exact hx ho)]
        exact h.newPins x hx
    · exact h

theorem LocalOk.unpin {i : Fin n} {p0 p : Proc n D W} (h : LocalOk g w i p0 p) (c : Nat) :
    LocalOk g w i p0 (Dccrg.unpin g i p c).2 := by
  unfold Dccrg.unpin
  split
  · exact h
  · rename_i hl
    have ho := ownLeaf_owner hl
    rw [h.owner] at ho
    split
    all_goals
      refine ⟨h.owner, h.placed, h.pins, ?_, h.weights, h.hoods, h.req⟩
      intro x hx
      show (if x = c then _ else p.newPins x) = none
      rw [if_neg (by rintro rfl; exact hx ho)]
      exact h.newPins x hx

theorem LocalOk.unpinLocal {i : Fin n} {p0 p : Proc n D W} (h : LocalOk g w i p0 p) :
    LocalOk g w i p0 (Dccrg.unpinLocal g i p).2 := by
  unfold Dccrg.unpinLocal
  generalize (ids g).filter _ = l
  suffices ∀ b (p : Proc n D W), LocalOk g w i p0 p → LocalOk g w i p0
      (l.foldl (fun s c => let r := Dccrg.unpin g i s.2 c; (s.1 && r.1, r.2)) (b, p)).2 from this true p h
  induction l with
  | nil => exact fun _ _ h => h
  | cons a l ih =>
    intro b p h
    exact ih _ _ (h.unpin a)

theorem LocalOk.setWeight {i : Fin n} {p0 p : Proc n D W} (h : LocalOk g w i p0 p) (c : Nat) (v : W) :
    LocalOk g w i p0 (Dccrg.setWeight g i p c v).2 := by
  unfold Dccrg.setWeight
  split
  · exact h
  · rename_i hl
    have ho := ownLeaf_owner hl
    rw [h.owner] at ho
    refine ⟨h.owner, h.placed, h.pins, h.newPins, ?_, h.hoods, h.req⟩
    intro x hx
    show (if x = c then _ else p.weights x) = none
    rw [if_neg (by rintro rfl; exact hx ho)]
    exact h.weights x hx

theorem LocalOk.write {i : Fin n} {p0 p : Proc n D W} (h : LocalOk g w i p0 p) (c : Nat) (v : D) :
    LocalOk g w i p0 (Dccrg.write p c v) := by
  unfold Dccrg.write
  split
  · rename_i hc
    refine ⟨h.owner, ?_, h.pins, h.newPins, h.weights, h.hoods, h.req⟩
    intro x
    show (if x = c then some v else p.data x).isSome = true ↔ _
    split
    · rename_i e; subst e
      rw [← h.placed, hc]; rfl
    · exact h.placed x
  · split
    · exact ⟨h.owner, h.placed, h.pins, h.newPins, h.weights, h.hoods, h.req⟩
    · split
      · exact ⟨h.owner, h.placed, h.pins, h.newPins, h.weights, h.hoods, h.req⟩
      · split
        · exact ⟨h.owner, h.placed, h.pins, h.newPins, h.weights, h.hoods, h.req⟩
        · exact h

theorem LocalOk.clearRefined {i : Fin n} {p0 p : Proc n D W} (h : LocalOk g w i p0 p) :
    LocalOk g w i p0 (Dccrg.clearRefined p) :=
  ⟨h.owner, h.placed, h.pins, h.newPins, h.weights, h.hoods, h.req⟩

theorem LocalOk.ask {i : Fin n} {p0 p : Proc n D W} (h : LocalOk g w i p0 p) {r : Req}
    (hr : ReqOk g w r) : LocalOk g w i p0 { p with req := r } :=
  ⟨h.owner, h.placed, h.pins, h.newPins, h.weights, h.hoods, hr⟩

theorem Inv.ask (h : Inv g w s) {i : Fin n} {o : Out (Bool × Req)} {s' : Sys n D W}
    (hs : s.ask i o = .ok s') (ho : ∀ b r, o = .ok (b, r) → ReqOk g w r) : Inv g w s' := by
  unfold Sys.ask at hs
  obtain ⟨⟨b, r⟩, h1, h2⟩ := Out.bind_inv hs
  injection h2 with h2
  subst h2
  exact h.set ((h.local i).ask (ho b r h1))

theorem itemOk_iff {o : V3 Int} : itemOk g o = true ↔ o ∈ hoodOf g := by
  unfold itemOk
  by_cases h0 : g.hood = 0
  · rw [if_neg (by omega), hoodOf_zero h0, Bool.and_eq_true, decide_eq_true_eq, decide_eq_true_eq]
    have key : ∀ x y z : Int, x.natAbs ≤ 1 → y.natAbs ≤ 1 → z.natAbs ≤ 1 →
        (((List.finRange 3).filter fun d => decide (v3 x y z d = 0)).length = 2 ↔ v3 x y z ∈ faces) := by
      intro x y z hx hy hz
      have ex : x = -1 ∨ x = 0 ∨ x = 1 := by omega
      have ey : y = -1 ∨ y = 0 ∨ y = 1 := by omega
      have ez : z = -1 ∨ z = 0 ∨ z = 1 := by omega
      rcases ex with rfl | rfl | rfl <;> rcases ey with rfl | rfl | rfl <;>
        rcases ez with rfl | rfl | rfl <;> decide
    have e : o = v3 (o 0) (o 1) (o 2) := v3_ext rfl rfl rfl
    constructor
    · rintro ⟨h1, h2⟩
      rw [e, ← key _ _ _ (h1 0) (h1 1) (h1 2), ← e]; exact h2
    · intro h
      have h1 : ∀ d, (o d).natAbs ≤ 1 := by
        obtain ⟨d, pos, rfl⟩ := faces_mem.1 h
        revert d pos; decide
      refine ⟨h1, ?_⟩
      rw [e] at h ⊢
      exact (key _ _ _ (h1 0) (h1 1) (h1 2)).2 h
  · rw [if_pos (by omega), mem_hoodOf h0, Bool.and_eq_true, decide_eq_true_eq, Bool.not_eq_true',
      decide_eq_false_iff_not]
    constructor
    · rintro ⟨h1, h2⟩
      exact ⟨fun d => by have := h1 d; omega, fun e => h2 (by rw [e]; exact ⟨rfl, rfl, rfl⟩)⟩
    · rintro ⟨h1, h2⟩
      exact ⟨fun d => by have := h1 d; omega, fun ⟨a, b, c⟩ => h2 (v3_ext a b c)⟩

theorem hoodFor_sub (h : Inv g w s) {i : Fin n} {id : Int} {H : List (V3 Int)}
    (hH : hoodFor g (s i) id = some H) : ∀ o ∈ H, o ∈ hoodOf g := by
  unfold hoodFor at hH
  split at hH
  · injection hH with hH; subst hH; exact fun o h => h
  · have : ∀ l : List (Int × List (V3 Int)), l.lookup id = some H → ∃ x ∈ l, x.2 = H := by
      intro l hl
      induction l with
      | nil => cases hl
      | cons a l ih =>
        rw [List.lookup_cons] at hl
        split at hl
        · injection hl with hl; exact ⟨a, List.mem_cons_self, hl⟩
        · obtain ⟨x, h1, h2⟩ := ih hl
          exact ⟨x, List.mem_cons_of_mem _ h1, h2⟩
    obtain ⟨x, h1, h2⟩ := this _ hH
    rw [← h2]; exact h.sys.hoods i x h1

theorem hoodFor_agree (h : Inv g w s) (i j : Fin n) (id : Int) :
    hoodFor g (s i) id = hoodFor g (s j) id := by
  unfold hoodFor; rw [h.hoods i j]

/-- Updates of remote neighbors with given neighborhood. -/
theorem updateRemote_spec (hw : g.WF) (h : Inv g w s) {maxTag : Nat} (hm : FitsTags maxTag w) {id : Int}
    {H : List (V3 Int)} (hH : ∀ i, hoodFor g (s i) id = some H) (hHo : ∀ o ∈ H, o ∈ hoodOf g) :
    ∃ res, updateRemote g maxTag id s = .ok res ∧
      (∀ i, (res i).1 = ((s i).hoods.lookup id).isSome) ∧
      (∀ i, (res i).2 = { s i with remote := (res i).2.remote }) ∧
      (∀ i p b, p ≠ i → w b = some p → (∃ c, w c = some i ∧ Linked g H c b) →
        (res i).2.remote b = (s p).data b) ∧
      ∀ i b, (¬ ∃ c, w c = some i ∧ Linked g H c b) ∨ w b = some i ∨ w b = none →
        (res i).2.remote b = (s i).remote b := by
  obtain ⟨res, h1, h2, h3⟩ := updateCopies_spec hw h.sys.tiled h.sys.balanced hHo hm
    (data := fun p => (s p).data) (remote := fun p => (s p).remote) ⟨h.sys.placed⟩
  refine ⟨fun i => (((s i).hoods.lookup id).isSome, { s i with remote := res i }), ?_, fun i => rfl,
    fun i => rfl, h2, h3⟩
  unfold updateRemote
  rw [if_neg (by rintro ⟨i, hi⟩; rw [hH] at hi; cases hi)]
  unfold updateCopies at h1
  simp only [hH, h.sys.owner, Option.getD_some]
  rw [h1, Out.bind_ok]

theorem updateRemote_mono {maxTag M : Nat} (hM : maxTag ≤ M) {id : Int}
    {res : Fin n → Bool × Proc n D W} (h : updateRemote g maxTag id s = .ok res) :
    updateRemote g M id s = .ok res := by
  unfold updateRemote at h ⊢
  split at h
  · cases h
  · rename_i h1
    rw [if_neg h1]
    obtain ⟨r, h2, h3⟩ := Out.bind_inv h
    rw [transfer_mono hM h2, Out.bind_ok, h3]

theorem updateRemote_sound (hw : g.WF) (h : Inv g w s) {maxTag : Nat} {id : Int}
    {res : Fin n → Bool × Proc n D W} (hr : updateRemote g maxTag id s = .ok res) :
    (∀ i, (res i).1 = ((s i).hoods.lookup id).isSome) ∧
    (∀ i, (res i).2 = { s i with remote := (res i).2.remote }) ∧
    (∀ i H p b, hoodFor g (s i) id = some H → p ≠ i → w b = some p →
      (∃ c, w c = some i ∧ Linked g H c b) → (res i).2.remote b = (s p).data b) ∧
    (∀ i H b, hoodFor g (s i) id = some H →
      (¬ ∃ c, w c = some i ∧ Linked g H c b) ∨ w b = some i ∨ w b = none →
        (res i).2.remote b = (s i).remote b) ∧
    ∀ i, ∃ H, hoodFor g (s i) id = some H := by
  have hM : maxTag ≤ max maxTag g.last := Nat.le_max_left _ _
  have hM' : g.last ≤ max maxTag g.last := Nat.le_max_right _ _
  have hall : ∀ i, ∃ H, hoodFor g (s i) id = some H := by
    intro i
    unfold updateRemote at hr
    split at hr
    · cases hr
    · rename_i h1
      cases hx : hoodFor g (s i) id with
      | none => exact absurd ⟨i, by rw [hx]; rfl⟩ h1
      | some H => exact ⟨H, rfl⟩
  by_cases hn : n = 0
  · subst hn
    exact ⟨fun i => i.elim0, fun i => i.elim0, fun i => i.elim0, fun i => i.elim0, fun i => i.elim0⟩
  · obtain ⟨H, hH⟩ := hall ⟨0, by omega⟩
    have hH' : ∀ i, hoodFor g (s i) id = some H := fun i => (hoodFor_agree h i _ id).trans hH
    obtain ⟨res', h1, h2, h3, h4, h5⟩ := updateRemote_spec hw h
      (fitsTags_mono hM' (fitsTags_last h.sys.tiled.valid)) hH' (hoodFor_sub h hH)
    rw [updateRemote_mono hM hr] at h1
    injection h1 with h1
    subst h1
    refine ⟨h2, h3, ?_, ?_, hall⟩
    · intro i H2 p b e
      rw [hH' i] at e
      injection e with e
      subst e
      exact h4 i p b
    · intro i H2 b e
      rw [hH' i] at e
      injection e with e
      subst e
      exact h5 i b

/-- Results of `add_neighborhood` of all processes. -/
theorem addHood_inv {dflt : D} {maxTag : Nat} {i : Fin n} {p p' : Proc n D W} {id : Int} {b : Bool}
    {items : List (V3 Int)} (h : Dccrg.addHood g dflt maxTag i p id items = .ok (b, p')) :
    (b = true ↔ id ≠ defaultId ∧ p.hoods.lookup id = none ∧ ∀ o ∈ items, o ∈ hoodOf g) ∧
    (b = false → p' = p) ∧
    (b = true → p' = { p with
      hoods := (id, items) :: p.hoods
      remote := fun c =>
        if c ∈ remoteBoundary g i p.owner (fun c => (p.data c).isSome) then
          some ((p.remote c).getD dflt) else p.remote c }) := by
  unfold addHood at h
  split at h
  · rename_i h1
    injection h with h; injection h with hb hp
    subst hb; subst hp
    exact ⟨⟨fun h => (by cases h), fun h => absurd h1 h.1⟩, fun _ => rfl, fun h => (by cases h)⟩
  · rename_i h1
    split at h
    · rename_i h2
      injection h with h; injection h with hb hp
      subst hb; subst hp
      refine ⟨⟨fun h => (by cases h), fun h => ?_⟩, fun _ => rfl, fun h => (by cases h)⟩
      rw [h.2.1] at h2; cases h2
    · rename_i h2
      split at h
      · rename_i h3
        injection h with h; injection h with hb hp
        subst hb; subst hp
        refine ⟨⟨fun h => (by cases h), fun h => ?_⟩, fun _ => rfl, fun h => (by cases h)⟩
        have : items.all (itemOk g) = true := by
          rw [List.all_eq_true]
          exact fun o ho => itemOk_iff.2 (h.2.2 o ho)
        rw [this] at h3; cases h3
      · rename_i h3
        split at h
        · cases h
        · split at h
          · cases h
          · injection h with h; injection h with hb hp
            subst hb; subst hp
            refine ⟨⟨fun _ => ⟨h1, Option.not_isSome_iff_eq_none.1 h2, ?_⟩, fun _ => rfl⟩, fun h => (by cases h),
              fun _ => rfl⟩
            have h4 : items.all (itemOk g) = true := by simpa using h3
            rw [List.all_eq_true] at h4
            exact fun o ho => itemOk_iff.1 (h4 o ho)

/-- The invariant holds after every operation. -/
theorem Inv.step (hw : g.WF) {dflt : D} {maxTag : Nat} (h : Inv g w s) {op : Op n D W} (ho : op.Ok s)
    {s' : Sys n D W} (hs : Dccrg.step g dflt maxTag s op = .ok s') : ∃ w', Inv g w' s' := by
  have ht := h.sys.tiled
  have hb := h.sys.balanced
  cases op with
  | refine i c =>
    refine ⟨w, h.ask hs fun b r hr => ?_⟩
    rw [h.sys.owner] at hr
    exact (h.req i).refineCompletely hw ht hb (h.sys.placed i) hr
  | unrefine i c =>
    refine ⟨w, h.ask hs fun b r hr => ?_⟩
    rw [h.sys.owner] at hr
    exact (h.req i).unrefineCompletely hw ht hb (h.sys.placed i) hr
  | dontRefine i c =>
    refine ⟨w, h.ask hs fun b r hr => ?_⟩
    rw [h.sys.owner] at hr
    exact (h.req i).dontRefine ht hr
  | dontUnrefine i c =>
    refine ⟨w, h.ask hs fun b r hr => ?_⟩
    rw [h.sys.owner] at hr
    exact (h.req i).dontUnrefine hw ht hr
  | pin i c q => injection hs with hs; subst hs; exact ⟨w, h.set ((h.local i).pin c q)⟩
  | unpin i c => injection hs with hs; subst hs; exact ⟨w, h.set ((h.local i).unpin c)⟩
  | unpinLocal i => injection hs with hs; subst hs; exact ⟨w, h.set (h.local i).unpinLocal⟩
  | setWeight i c x => injection hs with hs; subst hs; exact ⟨w, h.set ((h.local i).setWeight c x)⟩
  | write i c v => injection hs with hs; subst hs; exact ⟨w, h.set ((h.local i).write c v)⟩
  | clearRefined i => injection hs with hs; subst hs; exact ⟨w, h.set (h.local i).clearRefined⟩
  | unpinAll =>
    injection hs with hs; subst hs
    exact ⟨w, ⟨h.sys.owner, ht, hb, h.sys.placed, fun _ _ _ => ⟨rfl, rfl⟩, fun _ _ _ => rfl,
      fun _ _ _ => rfl, h.sys.weights, h.sys.hoods⟩, h.req, h.hoods⟩
  | update id =>
    obtain ⟨r, h1, h2⟩ := Out.bind_inv hs
    injection h2 with h2; subst h2
    have h3 := (updateRemote_sound hw h h1).2.1
    refine ⟨w, ⟨?_, ht, hb, ?_, ?_, ?_, ?_, ?_, ?_⟩, ?_, ?_⟩
    · intro i; show ((r i).2).owner = _; rw [h3 i]; exact h.sys.owner i
    · intro i; show ∀ c, (((r i).2).data c).isSome = true ↔ _; rw [h3 i]; exact h.sys.placed i
    · intro i; show ∀ c, _ → ((r i).2).pins c = none ∧ ((r i).2).newPins c = none; rw [h3 i]; exact h.sys.pins i
    · intro i j c; show ((r i).2).pins c = ((r j).2).pins c; rw [h3 i, h3 j]; exact h.sys.pinsAgree i j c
    · intro i; show ∀ c, _ → ((r i).2).newPins c = none; rw [h3 i]; exact h.sys.newPins i
    · intro i; show ∀ c, _ → ((r i).2).weights c = none; rw [h3 i]; exact h.sys.weights i
    · intro i; show ∀ x ∈ ((r i).2).hoods, _; rw [h3 i]; exact h.sys.hoods i
    · intro i; show ReqOk g w ((r i).2).req; rw [h3 i]; exact h.req i
    · intro i j; show ((r i).2).hoods = ((r j).2).hoods; rw [h3 i, h3 j]; exact h.hoods i j
  | addHood id items =>
    obtain ⟨r, h1, h2⟩ := Out.bind_inv hs
    injection h2 with h2; subst h2
    have h3 := fun i => addHood_inv (b := (r i).1) (p' := (r i).2) (Out.collect_inv h1 i)
    by_cases hn : n = 0
    · subst hn
      exact ⟨w, ⟨fun i => i.elim0, ht, hb, fun i => i.elim0, fun i => i.elim0, fun i => i.elim0,
        fun i => i.elim0, fun i => i.elim0, fun i => i.elim0⟩, fun i => i.elim0, fun i => i.elim0⟩
    by_cases hy : ∀ i, (r i).1 = true
    · have h4 := fun i => (h3 i).2.2 (hy i)
      have h5 := fun i => ((h3 i).1.1 (hy i)).2.2
      refine ⟨w, ⟨?_, ht, hb, ?_, ?_, ?_, ?_, ?_, ?_⟩, ?_, ?_⟩
      · intro i; show ((r i).2).owner = _; rw [h4 i]; exact h.sys.owner i
      · intro i; show ∀ c, (((r i).2).data c).isSome = true ↔ _; rw [h4 i]; exact h.sys.placed i
      · intro i; show ∀ c, _ → ((r i).2).pins c = none ∧ ((r i).2).newPins c = none; rw [h4 i]; exact h.sys.pins i
      · intro i j c; show ((r i).2).pins c = ((r j).2).pins c; rw [h4 i, h4 j]; exact h.sys.pinsAgree i j c
      · intro i; show ∀ c, _ → ((r i).2).newPins c = none; rw [h4 i]; exact h.sys.newPins i
      · intro i; show ∀ c, _ → ((r i).2).weights c = none; rw [h4 i]; exact h.sys.weights i
      · intro i x; show x ∈ ((r i).2).hoods → _; rw [h4 i]
        intro hx
        rcases List.mem_cons.1 hx with rfl | hx
        · exact h5 i
        · exact h.sys.hoods i x hx
      · intro i; show ReqOk g w ((r i).2).req; rw [h4 i]; exact h.req i
      · intro i j; show ((r i).2).hoods = ((r j).2).hoods; rw [h4 i, h4 j]
        show _ :: _ = _ :: _
        rw [h.hoods i j]
    · have hno : ∀ i, (r i).1 = false := by
        intro i
        cases hx : (r i).1 with
        | false => rfl
        | true =>
          refine absurd (fun j => ?_) hy
          have := (h3 i).1.1 hx
          rw [h.hoods i j] at this
          exact (h3 j).1.2 this
      have h4 : (fun i => (r i).2) = s := funext fun i => (h3 i).2.1 (hno i)
      rw [h4]
      exact ⟨w, h⟩
  | removeHood id =>
    injection hs with hs; subst hs
    unfold Dccrg.removeHood
    by_cases hi : id = defaultId
    · simp only [if_pos hi]; exact ⟨w, h⟩
    · simp only [if_neg hi]
      refine ⟨w, ⟨h.sys.owner, ht, hb, h.sys.placed, h.sys.pins, h.sys.pinsAgree, h.sys.newPins,
        h.sys.weights, ?_⟩, h.req, ?_⟩
      · intro i x hx
        exact h.sys.hoods i x (List.mem_filter.1 hx).1
      · intro i j
        show List.filter _ _ = List.filter _ _
        rw [h.hoods i j]
  | stop sorted =>
    obtain ⟨r, h1, h2⟩ := Out.bind_inv hs
    injection h2 with h2; subst h2
    have h3 := (stopRefining_sound hw h.sys.core h.req h1).1
    refine ⟨_, h3.sysOk hw h.sys, h3.reqOk _, ?_⟩
    intro i j
    show ((r i).1).hoods = ((r j).1).hoods
    rw [(h3.exec i).hoods, (h3.exec j).hoods]; exact h.hoods i j
  | balance z =>
    by_cases hn : n = 0
    · subst hn
      exact ⟨w, ⟨fun i => i.elim0, ht, hb, fun i => i.elim0, fun i => i.elim0, fun i => i.elim0,
        fun i => i.elim0, fun i => i.elim0, fun i => i.elim0⟩, fun i => i.elim0, fun i => i.elim0⟩
    have hz := ho ⟨0, by omega⟩
    rw [h.sys.owner] at hz
    have h3 := balanceLoad_sound hw hz h.sys hs
    refine ⟨_, Rehomed.sysOk h.sys h3, ?_, ?_⟩
    · intro i
      rw [(h3 i).req]
      exact ⟨fun c hc => (by cases hc), fun c hc => (by cases hc)⟩
    · intro i j
      rw [(h3 i).hoods, (h3 j).hoods]; exact h.hoods i j

end

/-- A copy is consistent. -/
theorem Inv.copy {D0 : Type} {w : Owner n} {s : Sys n D0 W} (h : Inv g w s) (dflt : D) :
    Inv g w (copyGrid g dflt s) := by
  refine ⟨⟨h.sys.owner, h.sys.tiled, h.sys.balanced, fun i c => ?_, h.sys.pins, h.sys.pinsAgree, h.sys.newPins,
    h.sys.weights, h.sys.hoods⟩, fun i => ⟨fun c hc => (by cases hc), fun c hc => (by cases hc)⟩, h.hoods⟩
  show (((s i).data c).map fun _ => dflt).isSome = true ↔ _
  rw [Option.isSome_map]
  exact h.sys.placed i c

/-- Every reachable state is consistent. -/
theorem Reachable.inv (hw : g.WF) {dflt : D} {maxTag : Nat} {s : Sys n D W} (h : Reachable g dflt maxTag s) :
    0 < n → ∃ w, Inv g w s := by
  intro hn
  induction h with
  | @init D dflt maxTag s h =>
    have hM : maxTag ≤ max maxTag g.last := Nat.le_max_left _ _
    have hM' : g.last ≤ max maxTag g.last := Nat.le_max_right _ _
    obtain ⟨s', h1, h2, h3⟩ := createGrid_spec (W := W) hw hn dflt
      (fitsTags_mono hM' (fitsTags_last (createLevel0_tiled hw hn).valid))
    rw [createGrid_mono hM h] at h1
    injection h1 with h1
    subst h1
    refine ⟨_, h2, fun i => ?_, fun i j => by rw [(h3 i).2.1, (h3 j).2.1]⟩
    rw [(h3 i).1]
    exact ⟨fun c hc => (by cases hc), fun c hc => (by cases hc)⟩
  | step op _ ho hs ih =>
    obtain ⟨w, hi⟩ := ih
    exact hi.step hw ho hs
  | copy _ ih =>
    obtain ⟨w, hi⟩ := ih
    exact ⟨w, hi.copy _⟩

end Dccrg
