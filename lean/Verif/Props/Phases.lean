import Verif.Phases
import Verif.Progress
import Verif.Props.Load
import Verif.Props.Halo
/-!
# C66, C67: load balancing in phases, updates of parts of data
-/
namespace Dccrg
open Cfg
variable {n : Nat} {D W : Type} {g : Cfg} {w : Owner n} {s s' t : Sys n D W} {dflt : D} {maxTag : Nat}
  {z : Fin n → Moves n} {ps : List (Phase n D)}

/-! ## Specification -/

/-- Data of cell `c`, that moves from process `p` to process `q`, on both processes: `x` on the first, `y` on the
second. A transfer changes data only on the receiving process, with whatever parts of data the users chose to
transfer from the sending process, others can change either. -/
def inMove (p q : Fin n) (c : Nat) : D × D → Phase n D → D × D
  | (x, y), .move m => (x, m p q c x y)
  | (x, y), .write k d v => if d = c then (if k = p then v else x, if k = q then v else y) else (x, y)

/-- Data of cell `c` that stays on process `p`: changed only by assignment. -/
def atHome (p : Fin n) (c : Nat) : D → Phase n D → D
  | x, .move _ => x
  | x, .write k d v => if d = c ∧ k = p then v else x

/-! ## Proofs -/

/-- Processes between start and end of load balancing when cells go according to `G`. -/
structure Going (G : Fin n → Fin n → Nat → Prop) (b : Fin n → Balancing n D W) : Prop where
  recv : ∀ p q c, c ∈ (b q).recv p ↔ G p q c
  send : ∀ p q c, c ∈ (b p).send q ↔ G p q c
  lists : ListsMatch (fun p => (b p).send) (fun q => (b q).recv)
  uniq : ∀ p q p' q' c, G p q c → G p' q' c → p = p' ∧ q = q'
  irrefl : ∀ p c, ¬ G p p c
  sender : ∀ p q c, G p q c → ((b p).proc.data c).isSome
  remote : ∀ i, (b i).proc.remote = fun _ => none
  refined : ∀ i, (b i).proc.refinedData = fun _ => none
  unrefined : ∀ i, (b i).proc.unrefinedData = fun _ => none

theorem Going.shape {G : Fin n → Fin n → Nat → Prop} {b b' : Fin n → Balancing n D W} (h : Going G b)
    (hb : SameShape b b') : Going G b' := by
  have er : (fun i => (b' i).recv) = fun i => (b i).recv := funext hb.recv
  have es : (fun i => (b' i).send) = fun i => (b i).send := funext hb.send
  refine ⟨fun p q c => ?_, fun p q c => ?_, ?_, h.uniq, h.irrefl, fun p q c hg => ?_,
    fun i => hb.rest.1.trans (h.remote i), fun i => hb.rest.2.1.trans (h.refined i),
    fun i => hb.rest.2.2.trans (h.unrefined i)⟩
  · rw [hb.recv]; exact h.recv p q c
  · rw [hb.send]; exact h.send p q c
  · rw [er, es]; exact h.lists
  · rw [hb.some]; exact h.sender p q c hg

theorem tagsOver_shape {b b' : Fin n → Balancing n D W} (hb : SameShape b b') (h : ¬ tagsOver maxTag b) :
    ¬ tagsOver maxTag b' := by
  rintro ⟨p, q, h1⟩
  rw [hb.send, hb.recv] at h1
  exact h ⟨p, q, h1⟩

theorem Going.transfer {G : Fin n → Fin n → Nat → Prop} {b : Fin n → Balancing n D W} (h : Going G b)
    (ht : ¬ tagsOver maxTag b) :
    ∃ d, Dccrg.transfer maxTag (fun p => (b p).send) (fun q => (b q).recv) (fun p => (b p).proc.data)
      (fun p => (b p).proc.data) = .ok d ∧
      (∀ q p c, G p q c → d q c = (b p).proc.data c) ∧
      (∀ q c, (∀ p, ¬ G p q c) → d q c = (b q).proc.data c) := by
  obtain ⟨d, d1, d2, d3⟩ := transfer_spec (maxTag := maxTag) h.lists (data := fun p => (b p).proc.data)
    (dest := fun p => (b p).proc.data)
    (fun p q => Nat.le_of_not_lt fun hx => ht ⟨p, q, .inl hx⟩)
    (fun p q c hc => h.sender p q c ((h.send p q c).1 hc))
  exact ⟨d, d1, fun q p c hg => d2 q p c ((h.recv p q c).2 hg),
    fun q c hg => d3 q c fun p hp => hg p ((h.recv p q c).1 hp)⟩

theorem arrives_goes {G : Fin n → Fin n → Nat → Prop} {b : Fin n → Balancing n D W} (h : Going G b)
    (m : Fin n → Fin n → Nat → D → D → D) {p q : Fin n} {c : Nat} (hg : G p q c) (x : Option D) :
    arrives m (b q) q c x = mergeOpt (m p q c) x ((b q).proc.data c) := by
  unfold arrives
  cases hf : (List.finRange n).find? fun r => decide (c ∈ (b q).recv r) with
  | none =>
    have := List.find?_eq_none.1 hf p (List.mem_finRange p)
    exact absurd ((h.recv p q c).2 hg) (by simpa using this)
  | some r =>
    have := List.find?_some hf
    have := (h.recv r q c).1 (of_decide_eq_true this)
    rw [(h.uniq _ _ _ _ _ this hg).1]

theorem arrives_not {G : Fin n → Fin n → Nat → Prop} {b : Fin n → Balancing n D W} (h : Going G b)
    (m : Fin n → Fin n → Nat → D → D → D) {q : Fin n} {c : Nat} (hg : ∀ p, ¬ G p q c) (x : Option D) :
    arrives m (b q) q c x = (b q).proc.data c := by
  unfold arrives
  cases hf : (List.finRange n).find? fun r => decide (c ∈ (b q).recv r) with
  | none => rfl
  | some r =>
    have := List.find?_some hf
    exact absurd ((h.recv r q c).1 (of_decide_eq_true this)) (hg r)

theorem write_data {p : Proc n D W} {c d : Nat} {v : D} (h1 : p.remote = fun _ => none)
    (h2 : p.refinedData = fun _ => none) (h3 : p.unrefinedData = fun _ => none) :
    (write p d v).data c = if d = c ∧ (p.data c).isSome then some v else p.data c := by
  unfold write
  rw [show (p.remote d).isSome = false by rw [h1]; rfl, show (p.refinedData d).isSome = false by rw [h2]; rfl,
    show (p.unrefinedData d).isSome = false by rw [h3]; rfl]
  simp only [Bool.false_eq_true, if_false]
  by_cases hd : d = c
  · subst hd
    cases hx : (p.data d).isSome with
    | true => rw [if_pos rfl, if_pos ⟨rfl, rfl⟩]; exact if_pos rfl
    | false => simp
  · rw [if_neg (show ¬ (d = c ∧ (p.data c).isSome = true) from fun h => hd h.1)]
    split
    · exact if_neg (show ¬ c = d from fun e => hd e.symm)
    · rfl

theorem runPhase_spec {G : Fin n → Fin n → Nat → Prop} {b : Fin n → Balancing n D W} (h : Going G b)
    (ht : ¬ tagsOver maxTag b) (ph : Phase n D) :
    ∃ b', runPhase maxTag b ph = .ok b' ∧ SameShape b b' ∧
      (∀ p q c x y, G p q c → (b p).proc.data c = some x → (b q).proc.data c = some y →
        (b' p).proc.data c = some (inMove p q c (x, y) ph).1 ∧ (b' q).proc.data c = some (inMove p q c (x, y) ph).2) ∧
      (∀ p c x, (∀ r, ¬ G r p c) → (b p).proc.data c = some x →
        (b' p).proc.data c = some (atHome p c x ph)) := by
  cases ph with
  | move m =>
    obtain ⟨d, d1, d2, d3⟩ := h.transfer ht
    let b' : Fin n → Balancing n D W := fun i =>
      { b i with proc := { (b i).proc with data := fun c => arrives m (b i) i c (d i c) } }
    have hr : runPhase maxTag b (.move m) = .ok b' := by
      show (transfer maxTag _ _ _ _).bind _ = _
      rw [d1]; rfl
    refine ⟨b', hr, runPhase_shape h.remote h.refined h.unrefined hr, fun p q c x y hg hx hy => ⟨?_, ?_⟩,
      fun p c x hg hx => ?_⟩
    · show arrives m (b p) p c (d p c) = some x
      rw [arrives_not h m _ _, hx]
      intro r hr
      have := (h.uniq _ _ _ _ _ hr hg).2
      exact h.irrefl q c (this ▸ hg)
    · show arrives m (b q) q c (d q c) = some (m p q c x y)
      rw [arrives_goes h m hg, d2 q p c hg, hx, hy]; rfl
    · show arrives m (b p) p c (d p c) = some x
      rw [arrives_not h m hg, hx]
  | write i d v =>
    let b' : Fin n → Balancing n D W := fun j => if j = i then { b i with proc := write (b i).proc d v } else b j
    have hr : runPhase maxTag b (.write i d v) = .ok b' := rfl
    have hd : ∀ j c x, (b j).proc.data c = some x →
        (b' j).proc.data c = some (if d = c ∧ i = j then v else x) := by
      intro j c x hx
      by_cases hj : j = i
      · subst hj
        show (if j = j then _ else _ : Balancing n D W).proc.data c = _
        rw [if_pos rfl]
        show (write (b j).proc d v).data c = _
        rw [write_data (h.remote j) (h.refined j) (h.unrefined j), hx]
        by_cases hdc : d = c
        · rw [if_pos ⟨hdc, rfl⟩, if_pos ⟨hdc, rfl⟩]
        · rw [if_neg fun h => hdc h.1, if_neg fun h => hdc h.1]
      · show (if j = i then _ else _ : Balancing n D W).proc.data c = _
        rw [if_neg hj, hx, if_neg fun h => hj h.2.symm]
    refine ⟨b', hr, runPhase_shape h.remote h.refined h.unrefined hr, fun p q c x y hg hx hy => ?_,
      fun p c x hg hx => hd p c x hx⟩
    rw [hd p c x hx, hd q c y hy]
    unfold inMove
    by_cases hdc : d = c
    · simp [hdc]
    · simp [hdc]

theorem runPhases_spec {G : Fin n → Fin n → Nat → Prop} {b : Fin n → Balancing n D W} (h : Going G b)
    (ht : ¬ tagsOver maxTag b) (ps : List (Phase n D)) :
    ∃ b', runPhases maxTag ps b = .ok b' ∧ SameShape b b' ∧
      (∀ p q c x y, G p q c → (b p).proc.data c = some x → (b q).proc.data c = some y →
        (b' q).proc.data c = some (ps.foldl (inMove p q c) (x, y)).2) ∧
      (∀ p c x, (∀ r, ¬ G r p c) → (b p).proc.data c = some x →
        (b' p).proc.data c = some (ps.foldl (atHome p c) x)) := by
  induction ps generalizing b with
  | nil => exact ⟨b, rfl, .refl b, fun _ _ _ _ _ _ _ hy => hy, fun _ _ _ _ hx => hx⟩
  | cons ph ps ih =>
    obtain ⟨b1, e1, e2, e3, e4⟩ := runPhase_spec h ht ph
    obtain ⟨b2, f1, f2, f3, f4⟩ := ih (h.shape e2) (tagsOver_shape e2 ht)
    refine ⟨b2, ?_, e2.trans f2, fun p q c x y hg hx hy => ?_, fun p c x hg hx => ?_⟩
    · show (runPhase maxTag b ph).bind _ = _
      rw [e1, Out.bind_ok]; exact f1
    · obtain ⟨h1, h2⟩ := e3 p q c x y hg hx hy
      exact f3 p q c _ _ hg h1 h2
    · exact f4 p c _ hg (e4 p c x hg hx)

theorem Started.going {b : Fin n → Balancing n D W} (hz : MovesOk w z) (hs : SysOk g w s)
    (h : Started g w dflt s z b) : Going (Goes w (pinned w s) z) b :=
  ⟨h.recv, h.send, h.lists, fun _ _ _ _ _ h1 h2 => Goes.unique hz h1 h2, fun _ _ h => h.1 rfl,
    fun p q c hg => by rw [h.keeps p c hg.2.1]; exact (hs.placed p c).2 hg.2.1,
    h.remote, h.refined, h.unrefined⟩

theorem Goes.iff_newHome (hz : MovesOk w z) {pins : Nat → Option (Fin n)} {p q : Fin n} {c : Nat} :
    Goes w pins z p q c ↔ w c = some p ∧ newHome w pins z c = some q ∧ p ≠ q := by
  constructor
  · intro h
    exact ⟨h.2.1, newHome_goes hz h, h.1⟩
  · rintro ⟨h1, h2, h3⟩
    by_cases h : ∃ p q, Goes w pins z p q c
    · obtain ⟨p', q', h⟩ := h
      have e1 := newHome_goes hz h
      rw [h2] at e1
      have e2 := h.2.1
      rw [h1] at e2
      injection e1 with e1
      injection e2 with e2
      rw [e1, e2]; exact h
    · rw [newHome_stays fun p q hg => h ⟨p, q, hg⟩, h1] at h2
      injection h2 with h2
      exact absurd h2 h3

theorem continue_shape {b : Fin n → Balancing n D W} (hz : MovesOk w z) (hs : SysOk g w s)
    (h : Started g w dflt s z b) (ht : ¬ tagsOver maxTag b) :
    ∃ b2, continueBalance maxTag b = .ok b2 ∧ SameShape b b2 := by
  have hg := h.going hz hs
  obtain ⟨d, d1, d2, d3⟩ := hg.transfer ht
  refine ⟨fun i => { b i with proc := { (b i).proc with data := d i } }, ?_, fun i => rfl, fun i c => ?_⟩
  · unfold continueBalance; rw [d1]; rfl
  · show (d i c).isSome = _
    by_cases h' : ∃ p, Goes w (pinned w s) z p i c
    · obtain ⟨p, h'⟩ := h'
      rw [d2 i p c h', h.gets p i c h', hg.sender p i c h']; rfl
    · rw [d3 i c fun p hp => h' ⟨p, hp⟩]

/-- What is known about load balancing in phases. -/
theorem phases_inv (hz : MovesOk w z) (hs : SysOk g w s)
    (hb : balancePhases g dflt maxTag z ps s = .ok t) :
    ∃ b b' t0, startBalance g dflt maxTag z s = .ok b ∧ Started g w dflt s z b ∧ ¬ tagsOver maxTag b ∧
      runPhases maxTag ps b = .ok b' ∧ balanceLoad g dflt maxTag z s = .ok t0 ∧
      t = (fun i => { t0 i with data := fun c => if ∃ q, c ∈ (b i).send q then none else (b' i).proc.data c }) ∧
      ∀ i c, ((t i).data c).isSome = ((t0 i).data c).isSome := by
  obtain ⟨b, i1, i2⟩ := initBalance_spec dflt hz hs
  have hg := i2.going hz hs
  unfold balancePhases at hb
  obtain ⟨b0, s1, hb⟩ := Out.bind_inv hb
  have s1' := s1
  unfold startBalance at s1
  rw [Out.collect_ok i1, Out.bind_ok] at s1
  split at s1
  · cases s1
  next ht =>
  injection s1 with s1
  subst s1
  obtain ⟨b', r1, r2⟩ := Out.bind_inv hb
  have sh := runPhases_shape i2.remote i2.refined i2.unrefined r1
  obtain ⟨b2, hc, sh2⟩ := continue_shape hz hs i2 ht
  have f1 := finishBalance_shape (sh.symm.trans sh2) r2
  have f2 := finishBalance_shape (sh2.symm.trans sh) f1
  rw [r2] at f2
  injection f2 with f2
  simp only [sh2.send] at f2
  refine ⟨b, b', fun i => { t i with data := fun c => if ∃ q, c ∈ (b' i).send q then none else (b2 i).proc.data c },
    s1', i2, ht, r1, ?_, ?_, fun i c => ?_⟩
  · unfold balanceLoad
    rw [Out.collect_ok i1, Out.bind_ok, hc, Out.bind_ok]
    exact f1
  · exact f2
  · have f3 : (t i).data = fun c => if ∃ q, c ∈ (b i).send q then none else (b' i).proc.data c := by
      have := congrFun f2 i
      rw [this]
    rw [f3]
    show Option.isSome (if ∃ q, c ∈ (b i).send q then none else (b' i).proc.data c) =
      Option.isSome (if ∃ q, c ∈ (b' i).send q then none else (b2 i).proc.data c)
    rw [sh.send]
    split
    · rfl
    · rw [sh.some, sh2.some]

/-- C66: calling the functions for load balancing one after another, with any number of transfers of any parts of data,
and changing data of cells in between, gives the same grid as `balance_load`, except for values of data of
cells, in other words same cells, owners, pins, weights, requests, neighborhoods and copies of remote neighbors. -/
theorem C66_same_grid (hw : g.WF) (hn : 0 < n) (h : Reachable g dflt maxTag s) (ho : (Op.balance z : Op n D W).Ok s)
    (hb : balancePhases g dflt maxTag z ps s = .ok t) :
    Reachable g dflt maxTag t ∧
    ∃ t0, step g dflt maxTag s (.balance z) = .ok t0 ∧
      (∀ i, t i = { t0 i with data := (t i).data }) ∧
      ∀ i c, ((t i).data c).isSome = ((t0 i).data c).isSome := by
  obtain ⟨w, hi⟩ := h.inv hw hn
  have hz : MovesOk w z := by have := ho ⟨0, hn⟩; rwa [hi.sys.owner] at this
  obtain ⟨b, b', t0, -, -, -, -, h1, h2, h3⟩ := phases_inv hz hi.sys hb
  have he : ∀ i, t i = { t0 i with data := (t i).data } := fun i => by rw [h2]
  exact ⟨reachable_data hw (h.step (.balance z) ho h1) he h3, t0, h1, he, h3⟩

/-- C66: what data of cells are in the end. -/
theorem C66_data (hw : g.WF) (h : Reachable g dflt maxTag s) (ho : (Op.balance z : Op n D W).Ok s)
    (hb : balancePhases g dflt maxTag z ps s = .ok t) {p q : Fin n} {c : Nat} {x : D}
    (hp : (s p).owner c = some p) (hx : (s p).data c = some x) (hq : (t q).owner c = some q) :
    (t q).data c = some (if p = q then ps.foldl (atHome p c) x else (ps.foldl (inMove p q c) (x, dflt)).2) := by
  have hn : 0 < n := by have := p.2; omega
  obtain ⟨w, hi⟩ := h.inv hw hn
  have hz : MovesOk w z := by have := ho ⟨0, hn⟩; rwa [hi.sys.owner] at this
  obtain ⟨b, b', t0, -, hst, htag, hrun, h1, h2, h3⟩ := phases_inv hz hi.sys hb
  have hre := balanceLoad_sound hw hz hi.sys h1
  rw [hi.sys.owner] at hp
  have hq' : newHome w (pinned w s) z c = some q := by
    rw [h2] at hq
    rw [← (hre q).owner]; exact hq
  obtain ⟨b1, r1, r2, r3, r4⟩ := runPhases_spec (hst.going hz hi.sys) htag ps
  rw [hrun] at r1
  injection r1 with r1
  subst r1
  have ht : (t q).data c = (b' q).proc.data c := by
    rw [h2]
    show (if _ then _ else _) = _
    rw [if_neg]
    rintro ⟨r, hr⟩
    have := (hst.send q r c).1 hr
    have e := newHome_goes hz this
    rw [hq'] at e
    injection e with e
    exact this.1 e
  rw [ht]
  by_cases hpq : p = q
  · subst hpq
    rw [if_pos rfl]
    apply r4
    · intro r hr
      have := hr.2.1
      rw [hp] at this
      injection this with this
      exact hr.1 this.symm
    · rw [hst.keeps p c hp, hx]
  · rw [if_neg hpq]
    have hg := (Goes.iff_newHome hz (pins := pinned w s)).2 ⟨hp, hq', hpq⟩
    apply r3 p q c x dflt hg
    · rw [hst.keeps p c hp, hx]
    · exact hst.gets p q c hg

theorem phases_ok (hw : g.WF) (hn : 0 < n) (hi : Inv g w s) (hz : MovesOk w z) (hm : g.last ≤ maxTag) (ps : List (Phase n D)) :
    ∃ t, balancePhases g dflt maxTag z ps s = .ok t := by
  have ho : (Op.balance z : Op n D W).Ok s := fun i => by rw [hi.sys.owner]; exact hz
  obtain ⟨b, i1, i2⟩ := initBalance_spec dflt hz hi.sys
  have hg := i2.going hz hi.sys
  have hf := fitsTags_last hi.sys.tiled.valid
  have htag : ¬ tagsOver maxTag b := by
    rintro ⟨p, q, h1 | h1⟩
    · have := hf p _ (i2.nodup p q) fun c hc => ((i2.send p q c).1 hc).2.1
      omega
    · have e : (b p).recv q = (b q).send p := (i2.lists.1 q p).symm
      rw [e] at h1
      have := hf q _ (i2.nodup q p) fun c hc => ((i2.send q p c).1 hc).2.1
      omega
  obtain ⟨b', r1, r2, -⟩ := runPhases_spec hg htag ps
  obtain ⟨t0, ht0⟩ := step_ok hw hn dflt hi hm (.balance z) ho trivial
  have ht0 : balanceLoad g dflt maxTag z s = .ok t0 := ht0
  unfold balanceLoad at ht0
  rw [Out.collect_ok i1, Out.bind_ok] at ht0
  obtain ⟨b2, c1, c2⟩ := Out.bind_inv ht0
  obtain ⟨b3, c3, c4⟩ := continue_shape hz hi.sys i2 htag
  rw [c1] at c3
  injection c3 with c3
  subst c3
  have hfin := finishBalance_shape (c4.symm.trans r2) c2
  unfold balancePhases startBalance
  rw [Out.collect_ok i1, Out.bind_ok, if_neg htag, Out.bind_ok, r1, Out.bind_ok]
  exact ⟨_, hfin⟩

/-- C66: with enough tags all phases return, whatever they are. -/
theorem C66_returns (hw : g.WF) (hn : 0 < n) (h : Reachable g dflt maxTag s) (ho : (Op.balance z : Op n D W).Ok s)
    (hm : g.last ≤ maxTag) (ps : List (Phase n D)) : ∃ t, balancePhases g dflt maxTag z ps s = .ok t := by
  obtain ⟨w, hi⟩ := h.inv hw hn
  exact phases_ok hw hn hi (by have := ho ⟨0, hn⟩; rwa [hi.sys.owner] at this) hm ps

/-- C66: cells reported as added to and removed from a process by load balancing, between its start and end, are
exactly those that the process gets and gives away. -/
theorem C66_added_removed (hw : g.WF) (h : Reachable g dflt maxTag s) (ho : (Op.balance z : Op n D W).Ok s)
    {b : Fin n → Balancing n D W} (hs : startBalance g dflt maxTag z s = .ok b)
    (hb : balancePhases g dflt maxTag z ps s = .ok t) (i : Fin n) (c : Nat) :
    (addedCells (b i) c ↔ (s i).owner c ≠ some i ∧ (t i).owner c = some i) ∧
    (removedCells (b i) c ↔ (s i).owner c = some i ∧ (t i).owner c ≠ some i) := by
  have hn : 0 < n := by have := i.2; omega
  obtain ⟨w, hi⟩ := h.inv hw hn
  have hz : MovesOk w z := by have := ho ⟨0, hn⟩; rwa [hi.sys.owner] at this
  obtain ⟨b1, b', t0, hb1, hst, -, -, h1, h2, -⟩ := phases_inv hz hi.sys hb
  rw [hs] at hb1
  injection hb1 with hb1
  subst hb1
  have hre := balanceLoad_sound hw hz hi.sys h1
  have et : (t i).owner = newHome w (pinned w s) z := by rw [h2]; exact (hre i).owner
  rw [et, hi.sys.owner]
  unfold addedCells removedCells
  constructor
  · constructor
    · rintro ⟨q, hq⟩
      have := (hst.recv q i c).1 hq
      exact ⟨by rw [this.2.1]; intro e; injection e with e; exact this.1 e, newHome_goes hz this⟩
    · rintro ⟨e1, e2⟩
      have he := exist_of e2
      rw [exist_newHome] at he
      obtain ⟨q, hq⟩ := exist_iff.1 he
      refine ⟨q, (hst.recv q i c).2 ((Goes.iff_newHome hz).2 ⟨hq, e2, ?_⟩)⟩
      intro e; subst e; exact e1 hq
  · constructor
    · rintro ⟨q, hq⟩
      have := (hst.send i q c).1 hq
      refine ⟨this.2.1, ?_⟩
      rw [newHome_goes hz this]; intro e; injection e with e; exact this.1 e.symm
    · rintro ⟨e1, e2⟩
      have he : exist (newHome w (pinned w s) z) c = true := by rw [exist_newHome]; exact exist_of e1
      obtain ⟨q, hq⟩ := exist_iff.1 he
      refine ⟨q, (hst.send i q c).2 ((Goes.iff_newHome hz).2 ⟨e1, hq, ?_⟩)⟩
      intro e; subst e; exact e2 hq

/-- C66: transfers that together replace all data, no matter what was there, give the same result as `balance_load`. -/
theorem C66_parts (hw : g.WF) (hn : 0 < n) (h : Reachable g dflt maxTag s) (ho : (Op.balance z : Op n D W).Ok s)
    {ms : List (Fin n → Fin n → Nat → D → D → D)}
    (hm : ∀ p q c x y, ms.foldl (fun y m => m p q c x y) y = x)
    (hb : balancePhases g dflt maxTag z (ms.map .move) s = .ok t) : step g dflt maxTag s (.balance z) = .ok t := by
  obtain ⟨-, t0, h1, h2, h3⟩ := C66_same_grid hw hn h ho hb
  rw [h1]
  congr 1
  funext i
  rw [h2 i]
  have hd : (t0 i).data = (t i).data := by
    funext c
    have e := h3 i c
    cases ht : (t i).data c with
    | none =>
      rw [ht] at e
      exact Option.not_isSome_iff_eq_none.1 (by rw [← e]; simp)
    | some y =>
      have hr := h.step (.balance z) ho h1
      obtain ⟨w, hi⟩ := h.inv hw hn
      obtain ⟨w', hi'⟩ := hr.inv hw hn
      have hq : (t0 i).owner c = some i := by
        rw [hi'.sys.owner]
        exact (hi'.sys.placed i c).1 (by rw [← e, ht]; rfl)
      have he := (C30_cells_and_data hw h ho h1 i i c).1
      rw [exist_of hq] at he
      obtain ⟨p, hp⟩ := exist_iff.1 he.symm
      have hpp : (s p).owner c = some p := by rw [hi.sys.owner, ← hi.sys.owner i]; exact hp
      have hd := ((C30_cells_and_data hw h ho h1 i i c).2.2 p i hp hq).1
      rw [hd]
      have hs := (hi.sys.placed p c).2 (by rw [← hi.sys.owner p]; exact hpp)
      obtain ⟨x, hx⟩ := Option.isSome_iff_exists.1 hs
      have hti : (t i).owner c = some i := by rw [h2 i]; exact hq
      have := C66_data hw h ho hb hpp hx hti
      rw [ht] at this
      rw [hx, this]
      congr 1
      split
      · clear hb hm this
        induction ms with
        | nil => rfl
        | cons m ms ih => exact ih
      · have key : ∀ (ms : List (Fin n → Fin n → Nat → D → D → D)) (y : D),
            ((ms.map Phase.move).foldl (inMove p i c) (x, y)) = (x, ms.foldl (fun y m => m p i c x y) y) := by
          intro ms
          induction ms with
          | nil => intro y; rfl
          | cons m ms ih => intro y; exact ih _
        rw [key, hm]
  show t0 i = { t0 i with data := (t i).data }
  rw [← hd]

/-! ## Demo -/

/-- Two transfers, the first one transfers the last decimal digit and the second one other digits. -/
def digits : List (Fin 2 → Fin 2 → Nat → Nat → Nat → Nat) :=
  [fun _ _ _ x y => y / 10 * 10 + x % 10, fun _ _ _ x y => x / 10 * 10 + y % 10]

/-- The demo meets hypotheses of all theorems above. Cell 1 moves and its data are transferred in two parts, the second
of which was changed by its old process in between. -/
example : ∃ (s t : Sys 2 Nat Nat) (ps : List (Phase 2 Nat)), tinyG.WF ∧ Reachable tinyG 0 146 s ∧
    (Op.balance move1 : Op 2 Nat Nat).Ok s ∧ balancePhases tinyG 0 146 move1 ps s = .ok t ∧
    (s 0).owner 1 = some 0 ∧ (s 0).data 1 = some 57 ∧ (t 1).owner 1 = some 1 ∧ (t 1).data 1 = some 67 := by
  obtain ⟨s, h1, h2, h3, -, -, -, h4, -⟩ := tiny_init
  obtain ⟨s1, e1, e2⟩ := tiny_step h2 (.write 0 1 57) trivial trivial
  have hi1 : ∀ i, (s1 i).owner = (createLevel0 2 2).2 := fun i => by
    rw [(step_quiet (.write 0 1 57) trivial e1 i).1, h3.sys.owner]
  have ho : (Op.balance move1 : Op 2 Nat Nat).Ok s1 := fun i => by
    refine move1_ok (?_ : (s1 i).owner 1 = some 0)
    rw [hi1]; exact h4
  obtain ⟨t, ht⟩ := C66_returns tiny_wf (by decide) e2 ho (by decide)
    [.move fun _ _ _ x y => y / 10 * 10 + x % 10, .write 0 1 68, .move fun _ _ _ x y => x / 10 * 10 + y % 10]
  obtain ⟨-, t0, g1, g2, -⟩ := C66_same_grid tiny_wf (by decide) e2 ho ht
  have hx : (s1 0).data 1 = some 57 := by
    injection e1 with e1
    have e1 := congrFun e1 0
    rw [← e1]
    have hs : ((s 0).data 1).isSome = true := (h3.sys.placed 0 1).2 h4
    show (write (s 0) 1 57).data 1 = _
    unfold write
    rw [if_pos hs]
    rfl
  have hp : (s1 0).owner 1 = some 0 := by rw [hi1]; exact h4
  have hq : (t 1).owner 1 = some 1 := by
    rw [g2]
    exact (C31_owners tiny_wf (Booked.step (.write 0 1 57) (.init h1) trivial e1) ho g1 1 1
      (by rw [hi1]; exact h4)).2.1 rfl 1 (by simp [move1])
  exact ⟨s1, t, _, tiny_wf, e2, ho, ht, hp, hx, hq, C66_data tiny_wf e2 ho ht hp hx hq⟩

example (p q : Fin 2) (c x y : Nat) : digits.foldl (fun y m => m p q c x y) y = x := by
  show x / 10 * 10 + (y / 10 * 10 + x % 10) % 10 = x
  omega

/-! ## C67 -/

theorem updateParts_inv (hw : g.WF) (h : Reachable g dflt maxTag s) (hi : Inv g w s) {id : Int}
    {m : Fin n → Fin n → Nat → D → D → D}
    {res : Fin n → Bool × Proc n D W} (hu : updateParts g maxTag id m s = .ok res) (i : Fin n) :
    ∃ H, hoodFor g (s i) id = some H ∧ (res i).1 = ((s i).hoods.lookup id).isSome ∧
      (res i).2 = { s i with remote := (res i).2.remote } ∧
      (∀ b j, w b = some j → j ≠ i → (∃ c, w c = some i ∧ Linked g H c b) → ∃ x y,
        (s j).data b = some x ∧ (s i).remote b = some y ∧ (res i).2.remote b = some (m j i b x y)) ∧
      (∀ b, (¬ ∃ c, w c = some i ∧ Linked g H c b) ∨ w b = some i ∨ w b = none →
        (res i).2.remote b = (s i).remote b) := by
  obtain ⟨r, u1, u2⟩ := Out.bind_inv hu
  injection u2 with u2
  subst u2
  obtain ⟨h1, h2, h3, h4, h5⟩ := updateRemote_sound hw hi u1
  obtain ⟨H, hH⟩ := h5 i
  have hm : ∀ p b, b ∈ recvList g ((hoodFor g (s i) id).getD []) i (s i).owner (fun c => ((s i).data c).isSome) p ↔
      p ≠ i ∧ w b = some p ∧ ∃ c, w c = some i ∧ Linked g H c b := by
    intro p b
    rw [hH, hi.sys.owner]
    exact mem_recvList hw hi.sys.tiled hi.sys.balanced (hoodFor_sub hi hH) (hi.sys.placed i)
  refine ⟨H, hH, h1 i, rfl, fun b j hj hji hl => ?_, fun b hb => ?_⟩
  · have hr := h3 i H j b hH hji hj hl
    obtain ⟨x, hx⟩ := Option.isSome_iff_exists.1 ((hi.sys.placed j b).2 hj)
    have hy : ((s i).remote b).isSome = true := by
      refine (h.fresh hw i).copies b ?_
      rw [remoteBoundary_eq, hi.sys.owner, mem_remoteBoundaryH hw hi.sys.tiled hi.sys.balanced (fun _ h => h)
        (hi.sys.placed i)]
      obtain ⟨c, hc, o, ho, hl⟩ := hl
      exact ⟨⟨j, hj, hji⟩, c, hc, .inl ⟨o, hoodFor_sub hi hH o ho, hl⟩⟩
    obtain ⟨y, hy⟩ := Option.isSome_iff_exists.1 hy
    refine ⟨x, y, hx, hy, ?_⟩
    show (Option.map _ (List.find? _ _)).getD _ = _
    cases hf : (List.finRange n).find? fun p => decide (b ∈ recvList g ((hoodFor g (s i) id).getD []) i (s i).owner
        (fun c => ((s i).data c).isSome) p) with
    | none =>
      have := List.find?_eq_none.1 hf j (List.mem_finRange j)
      exact absurd ((hm j b).2 ⟨hji, hj, hl⟩) (by simpa using this)
    | some p =>
      have hf := List.find?_some hf
      have := (hm p b).1 (of_decide_eq_true hf)
      have e := this.2.1
      rw [hj] at e
      injection e with e
      subst e
      show mergeOpt _ _ _ = _
      rw [hr, hx, hy]; rfl
  · show (Option.map _ (List.find? _ _)).getD _ = _
    cases hf : (List.finRange n).find? fun p => decide (b ∈ recvList g ((hoodFor g (s i) id).getD []) i (s i).owner
        (fun c => ((s i).data c).isSome) p) with
    | none => rfl
    | some p =>
      have hf := List.find?_some hf
      obtain ⟨e1, e2, e3⟩ := (hm p b).1 (of_decide_eq_true hf)
      rcases hb with hb | hb | hb
      · exact absurd e3 hb
      · rw [e2] at hb; injection hb with hb; exact absurd hb e1
      · rw [e2] at hb; cases hb

/-- C67: an update of a part of data changes that part of every copy of a remote neighbor to what its owner has. -/
theorem C67_copies (hw : g.WF) (h : Reachable g dflt maxTag s) {id : Int} {m : Fin n → Fin n → Nat → D → D → D}
    {res : Fin n → Bool × Proc n D W} (hu : updateParts g maxTag id m s = .ok res) (i j : Fin n) {c b : Nat}
    (hc : (s i).owner c = some i) (hb : NbrOf g (s i) id c b) (hj : (s i).owner b = some j) (hij : j ≠ i) :
    ∃ x y, access (s j) b = some x ∧ access (s i) b = some y ∧ access (res i).2 b = some (m j i b x y) := by
  obtain ⟨w, hi⟩ := h.inv hw (by have := i.2; omega)
  obtain ⟨H, hH, -, h2, h3, -⟩ := updateParts_inv hw h hi hu i
  rw [hi.sys.owner] at hc hj
  obtain ⟨x, y, e1, e2, e3⟩ := h3 b j hj hij ⟨c, hc, ((hi.nbrOf_iff hw hH (exist_of hc)).1 hb).2⟩
  have hd : (s i).data b = none := by
    apply Option.not_isSome_iff_eq_none.1
    rw [hi.sys.placed i b, hj]
    intro e; injection e with e; exact hij e
  have hd' : (res i).2.data b = none := by rw [h2]; exact hd
  refine ⟨x, y, ?_, ?_, ?_⟩
  · unfold access; rw [e1]
  · unfold access; rw [hd, e2]
  · unfold access; rw [hd', e3]

/-- C67: nothing else changes. -/
theorem C67_rest (hw : g.WF) (h : Reachable g dflt maxTag s) {id : Int} {m : Fin n → Fin n → Nat → D → D → D}
    {res : Fin n → Bool × Proc n D W} (hu : updateParts g maxTag id m s = .ok res) (i : Fin n) :
    (res i).2 = { s i with remote := (res i).2.remote } ∧
    ∀ b, ((s i).owner b = some i ∨ ¬ ∃ c, (s i).owner c = some i ∧ NbrOf g (s i) id c b) →
      access (res i).2 b = access (s i) b := by
  obtain ⟨w, hi⟩ := h.inv hw (by have := i.2; omega)
  obtain ⟨H, hH, -, h2, -, h4⟩ := updateParts_inv hw h hi hu i
  refine ⟨h2, fun b hb => ?_⟩
  have hr : (res i).2.remote b = (s i).remote b := by
    apply h4 b
    cases hx : w b with
    | none => exact Or.inr (Or.inr rfl)
    | some j =>
      rcases hb with hb | hb
      · rw [hi.sys.owner, hx] at hb; exact Or.inr (Or.inl hb)
      · refine Or.inl ?_
        rintro ⟨c, hc, hl⟩
        exact hb ⟨c, by rw [hi.sys.owner]; exact hc, (hi.nbrOf_iff hw hH (exist_of hc)).2 ⟨exist_of hx, hl⟩⟩
  rw [h2]
  unfold access
  simp only [hr]

/-- C67: it returns whenever the neighborhood exists, and whatever holds for all histories of the grid (other theorems)
continues to hold after it. -/
theorem C67_history (hw : g.WF) (hn : 0 < n) (h : Reachable g dflt maxTag s) {id : Int}
    (m : Fin n → Fin n → Nat → D → D → D) :
    ((∀ i, (hoodFor g (s i) id).isSome = true) → ∃ res, updateParts g maxTag id m s = .ok res) ∧
    ∀ res, updateParts g maxTag id m s = .ok res → Reachable g dflt maxTag fun i => (res i).2 := by
  refine ⟨fun hk => ?_, fun res hu => ?_⟩
  · obtain ⟨r, hr⟩ := h.update_ok hw hn hk
    unfold updateParts
    rw [hr, Out.bind_ok]
    exact ⟨_, rfl⟩
  · obtain ⟨w, hi⟩ := h.inv hw hn
    refine reachable_remote h (fun i => ?_) fun i c hne => ?_
    · obtain ⟨H, -, -, h2, -⟩ := updateParts_inv hw h hi hu i
      exact h2
    · obtain ⟨H, hH, -, h2, h3, h4⟩ := updateParts_inv hw h hi hu i
      have hne : (res i).2.remote c ≠ (s i).remote c := hne
      cases hx : w c with
      | none => exact absurd (h4 c (.inr (.inr hx))) hne
      | some j =>
        by_cases hj : j = i
        · subst hj; exact absurd (h4 c (.inr (.inl hx))) hne
        · by_cases hl : ∃ b, w b = some i ∧ Linked g H b c
          · obtain ⟨x, y, e1, e2, e3⟩ := h3 c j hx hj hl
            refine ⟨?_, (hi.sys.tiled.valid c (exist_of hx)).2, by rw [e2]; rfl, ?_⟩
            · apply Option.not_isSome_iff_eq_none.1
              rw [hi.sys.placed i c, hx]
              intro e; injection e with e; exact hj e
            · show ((res i).2.remote c).isSome = true
              rw [e3]; rfl
          · exact absurd (h4 c (.inl hl)) hne

/-- The demo meets hypotheses of the theorems about updates of parts of data: only the last decimal digit is
updated. -/
example : ∃ (s : Sys 2 Nat Nat) (res : Fin 2 → Bool × Proc 2 Nat Nat), tinyG.WF ∧ Reachable tinyG 0 146 s ∧
    updateParts tinyG 146 defaultId (fun _ _ _ x y => y / 10 * 10 + x % 10) s = .ok res ∧
    (s 0).owner 1 = some 0 ∧ NbrOf tinyG (s 0) defaultId 1 2 ∧ (s 0).owner 2 = some 1 ∧ access (s 1) 2 = some 57 ∧
    ∃ y, access (s 0) 2 = some y ∧ access (res 0).2 2 = some (y / 10 * 10 + 7) := by
  obtain ⟨s, h1, h2, h3, -, -, -, h4, h5⟩ := tiny_init
  obtain ⟨s1, e1, e2⟩ := tiny_step h2 (.write 1 2 57) trivial trivial
  obtain ⟨w, hi⟩ := e2.inv tiny_wf (by decide)
  have ho : ∀ i, (s1 i).owner = (createLevel0 2 2).2 := fun i => by
    rw [(step_quiet (.write 1 2 57) trivial e1 i).1, h3.sys.owner]
  have hwo : w = (createLevel0 2 2).2 := (hi.sys.owner 0).symm.trans (ho 0)
  have hn : NbrOf tinyG (s1 0) defaultId 1 2 :=
    (hi.nbrOf_iff tiny_wf (if_pos rfl) (exist_of (by rw [hwo]; exact h4))).2
      ⟨exist_of (by rw [hwo]; exact h5), tiny_linked.1⟩
  obtain ⟨res, hr⟩ := (C67_history tiny_wf (by decide) e2 (id := defaultId) fun _ _ _ x y => y / 10 * 10 + x % 10).1
    (fun i => by unfold hoodFor; rw [if_pos rfl]; rfl)
  obtain ⟨x, y, a1, a2, a3⟩ := C67_copies tiny_wf e2 hr 0 1 (by rw [ho]; exact h4) hn (by rw [ho]; exact h5) (by decide)
  have hx : access (s1 1) 2 = some 57 := by
    injection e1 with e1
    have e1 := congrFun e1 1
    rw [← e1]
    have hs : ((s 1).data 2).isSome = true := (h3.sys.placed 1 2).2 h5
    show access (write (s 1) 2 57) 2 = _
    unfold write
    rw [if_pos hs]
    rfl
  refine ⟨s1, res, tiny_wf, e2, hr, by rw [ho]; exact h4, hn, by rw [ho]; exact h5, hx, y, a2, ?_⟩
  rw [a3]
  rw [hx] at a1
  injection a1 with a1
  subst a1
  rfl

end Dccrg
