import Verif.Async
import Verif.Props.Halo
/-!
# C62: split-phase updates of remote neighbors
-/
namespace Dccrg
open Cfg

section
variable {n : Nat} {D : Type} {single : Bool} {S R : Nat → Fin n → Fin n → List Nat} {dflt : D}

theorem Async.Step.started {a b : Async n D} {e : Event n D} (h : Async.Step single S R dflt e a b) (p : Fin n) :
    a.sendsStarted p ≤ b.sendsStarted p := by
  cases h with
  | startSends i =>
    show _ ≤ upd a.sendsStarted i (a.sendsStarted i + 1) p
    unfold upd; split
    · next h => rw [h]; omega
    · omega
  | _ => exact Nat.le_refl _

theorem Event.snap_old {a : Async n D} {snap : Nat → Fin n → Nat → D} (e : Event n D) {r : Nat} {p : Fin n}
    (h : r < a.sendsStarted p) : e.snap a snap r p = snap r p := by
  cases e with
  | startSends i =>
    funext c
    show (if p = i ∧ r = a.sendsStarted i then _ else _) = _
    rw [if_neg]
    rintro ⟨rfl, rfl⟩
    omega
  | _ => rfl

theorem Async.Run.good {snap : Nat → Fin n → Nat → D} {m : Chan n → Nat} {a b : Async n D}
    {es : List (Event n D)} (hR : RoundsMatch S R) (ha : a.Good single S R snap m)
    (h : Async.Run single S R dflt es a b) : ∃ snap' m', b.Good single S R snap' m' ∧
      (∀ p, a.sendsStarted p ≤ b.sendsStarted p) ∧
      ∀ r p, r < a.sendsStarted p → snap' r p = snap r p := by
  induction h with
  | refl => exact ⟨snap, m, ha, fun _ => Nat.le_refl _, fun _ _ _ => rfl⟩
  | @step e es a b c hr hs ih =>
    obtain ⟨snap', m', h1, h2, h3⟩ := ih ha
    obtain ⟨m'', h4⟩ := h1.step hR hs
    exact ⟨_, m'', h4, fun p => Nat.le_trans (h2 p) (hs.started p), fun r p hr => by
      rw [Event.snap_old _ (Nat.lt_of_lt_of_le hr (h2 p))]; exact h3 r p hr⟩

/-- Messages of a finished update have come from the sender. -/
theorem Async.Good.sent {snap : Nat → Fin n → Nat → D} {m : Chan n → Nat} {a : Async n D}
    (hR : RoundsMatch S R) (ha : a.Good single S R snap m) {q p : Fin n} {r c : Nat}
    (hr : r < a.recvsDone q) (hc : c ∈ R r q p) : r < a.sendsStarted p := by
  rw [← hR.eq] at hc
  obtain ⟨ch, cs, h1, h2⟩ := posts_cover (single := single) (p := p) (q := q) hc
  obtain ⟨e1, e2, -⟩ := mem_posts.1 h1
  subst e1; subst e2
  exact Nat.lt_of_lt_of_le (ha.got ch cs r hr h1) (ha.sendLe ch)

theorem Async.Good.copied {snap : Nat → Fin n → Nat → D} {m : Chan n → Nat} {a : Async n D}
    (hR : RoundsMatch S R) (ha : a.Good single S R snap m) {q p : Fin n} {r c : Nat}
    (hr : r < a.recvsDone q) (hc : c ∈ R r q p)
    (hl : ∀ r' p', r < r' → r' < a.recvsStarted q → c ∉ R r' q p') : a.copy q c = some (snap r p c) := by
  have hc' := hc
  rw [← hR.eq] at hc'
  obtain ⟨ch, cs, h1, h2⟩ := posts_cover (single := single) (p := p) (q := q) hc'
  have hp := mem_posts.1 h1
  have h3 : r < m ch := by
    apply ha.got ch cs r (by rw [hp.2.1]; exact hr)
    rw [hp.1, hp.2.1]; exact h1
  exact ha.copies q p r c ch cs h3 h1 h2 hl

theorem Async.Good.stuck {snap : Nat → Fin n → Nat → D} {m : Chan n → Nat} {a : Async n D}
    (ha : a.Good single S R snap m) (hd : ∀ x b, ¬ Async.Step single S R dflt (.deliver x) a b) :
    (∀ q, (∀ p, a.recvsStarted q ≤ a.sendsStarted p) → ∀ x ∈ a.recvs, x.ch.dst ≠ q) ∧
    ∀ p, (∀ q, a.sendsStarted p ≤ a.recvsStarted q) → ∀ x ∈ a.sends, x.1.ch.src ≠ p := by
  have key : ∀ x y, x ∈ a.sends → y ∈ a.recvs → x.1.ch ≠ y.ch := by
    intro x y hx hy hxy
    have first : ∀ (l : List (Post n)) (ch : Chan n), (∃ z ∈ l, z.ch = ch) →
        ∃ l1 z l2, l = l1 ++ z :: l2 ∧ z.ch = ch ∧ ∀ u ∈ l1, u.ch ≠ ch := by
      intro l ch h
      induction l with
      | nil => obtain ⟨z, hz, -⟩ := h; cases hz
      | cons u l ih =>
        by_cases hu : u.ch = ch
        · exact ⟨[], u, l, rfl, hu, by simp⟩
        · obtain ⟨z, hz, hzc⟩ := h
          rcases List.mem_cons.1 hz with rfl | hz
          · exact absurd hzc hu
          obtain ⟨l1, z, l2, e1, e2, e3⟩ := ih ⟨z, hz, hzc⟩
          refine ⟨u :: l1, z, l2, by rw [e1]; rfl, e2, fun v hv => ?_⟩
          rcases List.mem_cons.1 hv with rfl | hv
          · exact hu
          · exact e3 v hv
    obtain ⟨r1, z, r2, e1, e2, e3⟩ := first a.recvs y.ch ⟨y, hy, rfl⟩
    obtain ⟨t1, u, t2, f1, f2, f3⟩ := first (a.sends.map (·.1)) y.ch ⟨x.1, List.mem_map.2 ⟨x, hx, rfl⟩, hxy⟩
    obtain ⟨s1, s2', g1, g2, g3⟩ := List.map_eq_append_iff.1 f1
    obtain ⟨⟨v, o⟩, s2, h1, h2, h3⟩ := List.map_eq_cons_iff.1 g3
    subst h1
    have h2 : v = u := h2
    subst h2
    refine hd v _ (.deliver g1 e1 (e2.trans f2.symm) ?_ ?_)
    · intro w hw
      rw [f2]
      exact f3 w.1 (by rw [← g2]; exact List.mem_map.2 ⟨w, hw, rfl⟩)
    · rw [f2]; exact e3
  constructor
  · intro q hq x hx hxq
    obtain ⟨h1, h2, h3⟩ := ha.recvQ.mem x hx
    have h3 : x.round < a.recvsStarted x.ch.dst := h3
    rw [hxq] at h3
    obtain ⟨y, hy, e1, -⟩ := ha.sendQ.all x.ch x.cells x.round h1 h2
      (show x.round < a.sendsStarted x.ch.src from Nat.lt_of_lt_of_le h3 (hq _))
    obtain ⟨z, hz, rfl⟩ := List.mem_map.1 hy
    exact key z x hz hx e1
  · intro p hp x hx hxp
    obtain ⟨h1, h2, h3⟩ := ha.sendQ.mem x.1 (List.mem_map.2 ⟨x, hx, rfl⟩)
    have h3 : x.1.round < a.sendsStarted x.1.ch.src := h3
    rw [hxp] at h3
    obtain ⟨y, hy, e1, -⟩ := ha.recvQ.all x.1.ch x.1.cells x.1.round h1 h2
      (show x.1.round < a.recvsStarted x.1.ch.dst from Nat.lt_of_lt_of_le h3 (hp _))
    exact key x y hx hy e1.symm

end

variable {n : Nat} {D W : Type} {g : Cfg} {s : Sys n D W} {dflt : D} {maxTag : Nat}

/-- Process `p` sends in an update with neighborhood `H` of grid `s`. -/
def sendsIn (g : Cfg) (s : Sys n D W) (H : Nat → List (V3 Int)) (r : Nat) (p q : Fin n) : List Nat :=
  sendList g (H r) p (s p).owner (s p).has q

/-- Process `q` receives in an update with neighborhood `H` of grid `s`. -/
def recvsIn (g : Cfg) (s : Sys n D W) (H : Nat → List (V3 Int)) (r : Nat) (q p : Fin n) : List Nat :=
  recvList g (H r) q (s q).owner (s q).has p

/-- Events of split-phase updates of a grid, update `r` uses neighborhood with id `ids r`. The grid isn't
refined, balanced or its neighborhoods changed meanwhile. -/
def SplitRun (g : Cfg) (s : Sys n D W) (single : Bool) (dflt : D) (ids : Nat → Int) (es : List (Event n D))
    (a b : Async n D) : Prop :=
  ∃ H : Nat → List (V3 Int), (∀ r i, hoodFor g (s i) (ids r) = some (H r)) ∧
    Async.Run single (sendsIn g s H) (recvsIn g s H) dflt es a b

/-- Data and copies of grid `s` before the first update is started. -/
def beforeUpdates (s : Sys n D W) (dflt : D) : Async n D where
  data p c := ((s p).data c).getD dflt
  copy q := (s q).remote
  sends := []
  recvs := []
  sendsStarted _ := 0
  sendsDone _ := 0
  recvsStarted _ := 0
  recvsDone _ := 0

theorem beforeUpdates_idle : (beforeUpdates s dflt).Idle := ⟨rfl, rfl, fun _ => rfl, fun _ => rfl, fun _ => rfl, fun _ => rfl⟩

theorem rounds_match (hw : g.WF) (h : Reachable g dflt maxTag s) {ids : Nat → Int} {H : Nat → List (V3 Int)}
    (hH : ∀ r i, hoodFor g (s i) (ids r) = some (H r)) : RoundsMatch (sendsIn g s H) (recvsIn g s H) ∧
    ∀ r q p c, c ∈ recvsIn g s H r q p ↔ p ≠ q ∧ (s p).owner c = some p ∧
      ∃ b, (s q).owner b = some q ∧ NbrOf g (s q) (ids r) b c := by
  have key : ∀ r q p c, c ∈ recvsIn g s H r q p ↔ p ≠ q ∧ (s p).owner c = some p ∧
      ∃ b, (s q).owner b = some q ∧ NbrOf g (s q) (ids r) b c := by
    intro r q p c
    obtain ⟨-, h2, -, h4⟩ := C34_lists hw h p q (hH r p)
    show c ∈ recvList g (H r) q (s q).owner (s q).has p ↔ _
    rw [← h2, h4]
  refine ⟨⟨fun r p q => (C34_lists hw h p q (hH r p)).2.1, fun r r' q p p' c h1 h2 => ?_⟩, key⟩
  obtain ⟨w, hi⟩ := h.inv hw (by have := p.2; omega)
  have e1 := ((key r q p c).1 h1).2.1
  have e2 := ((key r' q p' c).1 h2).2.1
  rw [hi.sys.owner] at e1 e2
  rw [e1] at e2
  exact Option.some.inj e2

/-- C62: processes start updates of remote neighbors and wait for them at any pace and MPI delivers
messages in any order. When process `q` has waited for the receives of its update `r` its copy of a remote neighbor has
the data which its owner `p` had when `p` started to send in its update `r`, provided that `q` hasn't since
started another update that receives the same cell. -/
theorem C62_copies (hw : g.WF) (h : Reachable g dflt maxTag s) {single : Bool} {ids : Nat → Int}
    {es es' : List (Event n D)} {a a' b : Async n D} {p q : Fin n} {r c d : Nat}
    (h1 : SplitRun g s single dflt ids es (beforeUpdates s dflt) a) (hr : a.sendsStarted p = r)
    (h2 : SplitRun g s single dflt ids [.startSends p] a a') (h3 : SplitRun g s single dflt ids es' a' b)
    (hq : r < b.recvsDone q) (hd : (s q).owner d = some q) (hc : NbrOf g (s q) (ids r) d c)
    (hp : (s q).owner c = some p) (hpq : p ≠ q)
    (hl : ∀ r', r < r' → r' < b.recvsStarted q → ∀ d', (s q).owner d' = some q → ¬ NbrOf g (s q) (ids r') d' c) :
    b.copy q c = some (a.data p c) := by
  obtain ⟨H, hH, h1⟩ := h1
  obtain ⟨H', hH', h2⟩ := h2
  obtain ⟨H'', hH'', h3⟩ := h3
  have e1 : H' = H := by
    funext r
    have := (hH r p).symm.trans (hH' r p)
    exact (Option.some.inj this).symm
  have e2 : H'' = H := by
    funext r
    have := (hH r p).symm.trans (hH'' r p)
    exact (Option.some.inj this).symm
  subst e1; subst e2
  obtain ⟨w, hi⟩ := h.inv hw (by have := p.2; omega)
  obtain ⟨hR, hk⟩ := rounds_match hw h hH
  obtain ⟨sn, m, g1, -, -⟩ := h1.good hR (beforeUpdates_idle.good (snap := fun _ _ _ => dflt))
  cases h2 with
  | step h2 hs =>
  cases h2
  obtain ⟨m', g2⟩ := g1.step hR hs
  obtain ⟨sn'', m'', g3, -, g4⟩ := h3.good hR g2
  have hlt : r < a'.sendsStarted p := by
    cases hs with
    | startSends =>
      show r < upd a.sendsStarted p (a.sendsStarted p + 1) p
      rw [upd_self]; omega
  have hmem : c ∈ recvsIn g s H'' r q p := (hk r q p c).2 ⟨hpq, by rw [hi.sys.owner]; rw [hi.sys.owner] at hp; exact hp,
    d, hd, hc⟩
  rw [g3.copied hR hq hmem (fun r' p' h5 h6 h7 => by
    obtain ⟨-, -, d', h8, h9⟩ := (hk r' q p' c).1 h7
    exact hl r' h5 h6 d' h8 h9), g4 r p hlt]
  show some (if p = p ∧ r = a.sendsStarted p then a.data p c else sn r p c) = _
  rw [if_pos ⟨rfl, hr.symm⟩]

/-- C62: waiting for receives does not return before the owners of received cells have started to send. -/
theorem C62_order (hw : g.WF) (h : Reachable g dflt maxTag s) {single : Bool} {ids : Nat → Int}
    {es : List (Event n D)} {b : Async n D} {p q : Fin n} {r c d : Nat}
    (h1 : SplitRun g s single dflt ids es (beforeUpdates s dflt) b)
    (hq : r < b.recvsDone q) (hd : (s q).owner d = some q) (hc : NbrOf g (s q) (ids r) d c)
    (hp : (s q).owner c = some p) (hpq : p ≠ q) : r < b.sendsStarted p := by
  obtain ⟨H, hH, h1⟩ := h1
  obtain ⟨w, hi⟩ := h.inv hw (by have := p.2; omega)
  obtain ⟨hR, hk⟩ := rounds_match hw h hH
  obtain ⟨sn, m, g1, -, -⟩ := h1.good hR (beforeUpdates_idle.good (snap := fun _ _ _ => dflt))
  exact g1.sent hR hq ((hk r q p c).2 ⟨hpq, by rw [hi.sys.owner]; rw [hi.sys.owner] at hp; exact hp, d, hd, hc⟩)

/-- C62: no deadlock. Once other processes have started as many updates, MPI can deliver more messages until
waiting for receives returns, and similarly for sends. -/
theorem C62_progress (hw : g.WF) (h : Reachable g dflt maxTag s) {single : Bool} {ids : Nat → Int}
    {es : List (Event n D)} {a : Async n D} (i : Fin n)
    (h1 : SplitRun g s single dflt ids es (beforeUpdates s dflt) a)
    (hd : ∀ x b, ¬ SplitRun g s single dflt ids [.deliver x] a b) :
    ((∀ p, a.recvsStarted i ≤ a.sendsStarted p) → ∃ b, SplitRun g s single dflt ids [.waitRecvs i] a b) ∧
    ((∀ q, a.sendsStarted i ≤ a.recvsStarted q) → ∃ b, SplitRun g s single dflt ids [.waitSends i] a b) := by
  obtain ⟨H, hH, h1⟩ := h1
  obtain ⟨hR, -⟩ := rounds_match hw h hH
  obtain ⟨sn, m, g1, -, -⟩ := h1.good hR (beforeUpdates_idle.good (snap := fun _ _ _ => dflt))
  obtain ⟨k1, k2⟩ := g1.stuck (dflt := dflt) (fun x b hb => hd x b ⟨H, hH, .step (.refl _) hb⟩)
  exact ⟨fun hq => ⟨_, H, hH, .step (.refl _) (.waitRecvs i (k1 i hq))⟩,
    fun hp => ⟨_, H, hH, .step (.refl _) (.waitSends i fun x hx e => absurd e (k2 i hp x hx))⟩⟩

/-- Number of events that MPI can still perform by itself. -/
def Async.remaining (a : Async n D) : Nat := 2 * a.sends.length - (a.sends.filter (·.2.isSome)).length

/-- Events of MPI. -/
def Event.OfMpi : Event n D → Prop
  | .buffer _ => True
  | .deliver _ => True
  | _ => False

theorem remaining_step {single : Bool} {S R : Nat → Fin n → Fin n → List Nat} {a b : Async n D}
    {e : Event n D} (he : e.OfMpi) (h : Async.Step single S R dflt e a b) : b.remaining < a.remaining := by
  have hle : ∀ l : List (Post n × Option (List D)), (l.filter (·.2.isSome)).length ≤ l.length :=
    fun l => List.length_filter_le _ _
  cases h with
  | @buffer _ x s1 s2 hs =>
    unfold Async.remaining
    rw [hs]
    simp only [List.length_append, List.length_cons, List.filter_append, List.filter_cons,
      Option.isSome_some, Option.isSome_none, if_true, Bool.false_eq_true, if_false]
    have h1 := hle s1
    have h2 := hle s2
    generalize (s1.filter (·.2.isSome)).length = u at *
    generalize (s2.filter (·.2.isSome)).length = v at *
    omega
  | @deliver _ x y o s1 s2 r1 r2 hs =>
    unfold Async.remaining
    rw [hs]
    simp only [List.length_append, List.length_cons, List.filter_append, List.filter_cons]
    have h1 := hle s1
    have h2 := hle s2
    have h3 : (if o.isSome = true then (x, o) :: s2.filter (·.2.isSome) else s2.filter (·.2.isSome)).length ≤
        (s2.filter (·.2.isSome)).length + 1 := by split <;> simp
    generalize (s1.filter (·.2.isSome)).length = u at *
    generalize (s2.filter (·.2.isSome)).length = v at *
    generalize (if o.isSome = true then (x, o) :: s2.filter (·.2.isSome) else s2.filter (·.2.isSome)).length = z at *
    omega
  | _ => exact absurd he id

/-- C62: MPI can't be busy for ever: the number of its events is bounded by twice the number of messages on the
way. -/
theorem C62_finite {single : Bool} {ids : Nat → Int} {es : List (Event n D)} {a b : Async n D}
    (h : SplitRun g s single dflt ids es a b) (he : ∀ e ∈ es, e.OfMpi) : es.length ≤ 2 * a.sends.length := by
  obtain ⟨H, hH, h⟩ := h
  have key : es.length + b.remaining ≤ a.remaining := by
    clear hH
    induction h with
    | refl => simp
    | step _ hs ih =>
      have h1 := ih fun e h => he e (List.mem_cons_of_mem _ h)
      have h2 := remaining_step (he _ (by simp)) hs
      rw [List.length_cons]
      omega
  have : a.remaining ≤ 2 * a.sends.length := Nat.sub_le _ _
  omega

/-! ## Demo -/

theorem eq_singleton {l : List Nat} {c : Nat} (h : l.Nodup) (hm : ∀ x, x ∈ l ↔ x = c) : l = [c] := by
  match l, h with
  | [], _ => exact absurd ((hm c).2 rfl) (by simp)
  | [x], _ => rw [(hm x).1 (by simp)]
  | x :: y :: l, h =>
    have h1 := (hm x).1 (by simp)
    have h2 := (hm y).1 (by simp)
    simp [h1, h2] at h

theorem eq_empty {l : List Nat} (hm : ∀ x, x ∉ l) : l = [] := List.eq_nil_iff_forall_not_mem.2 hm

/-- Process 1 sets its cell 2 to 7 and starts to send it. MPI copies the value, process 1 waits and then sets
the cell to 9, which is not seen by process 0 that receives 7 when it gets around to the update. -/
example : ∃ (s : Sys 2 Nat Nat) (es es' : List (Event 2 Nat)) (a a' b : Async 2 Nat),
    Reachable tinyG 0 146 s ∧
    SplitRun tinyG s false 0 (fun _ => defaultId) es (beforeUpdates s 0) a ∧
    SplitRun tinyG s false 0 (fun _ => defaultId) [.startSends 1] a a' ∧
    SplitRun tinyG s false 0 (fun _ => defaultId) es' a' b ∧
    a.sendsStarted 1 = 0 ∧ 0 < b.recvsDone 0 ∧ b.recvsStarted 0 = 1 ∧ (s 0).owner 1 = some 0 ∧
    NbrOf tinyG (s 0) defaultId 1 2 ∧ (s 0).owner 2 = some 1 ∧ a.data 1 2 = 7 ∧ b.data 1 2 = 9 ∧
    b.copy 0 2 = some 7 := by
  obtain ⟨s, -, h2, h3, -, -, -, h5, h6⟩ := tiny_init
  have hH : ∀ (r : Nat) (i : Fin 2), hoodFor tinyG (s i) defaultId = some (hoodOf tinyG) := fun r i => rfl
  have hn : NbrOf tinyG (s 0) defaultId 1 2 :=
    (h3.nbrOf_iff tiny_wf (hH 0 0) (exist_of h5)).2 ⟨exist_of h6, tiny_linked.1⟩
  obtain ⟨hR, hk⟩ := rounds_match (ids := fun _ => defaultId) (H := fun _ => hoodOf tinyG) tiny_wf h2 hH
  have hex : ∀ c : Nat, (createLevel0 2 2).2 c = some (1 : Fin 2) → c = 2 := by
    intro c hc
    have hb := (h3.sys.tiled.valid c (exist_of hc)).2
    rw [tiny_last] at hb
    have : ∀ c < 147, (createLevel0 2 2).2 c = some (1 : Fin 2) → c = 2 := by decide +kernel
    exact this c (by omega) hc
  have hr01 : recvsIn tinyG s (fun _ => hoodOf tinyG) 0 0 1 = [2] := by
    apply eq_singleton
    · rw [← hR.eq]; exact sendList_nodup
    · intro c
      rw [hk]
      constructor
      · rintro ⟨-, h, -⟩
        rw [h3.sys.owner] at h
        exact hex c h
      · rintro rfl
        exact ⟨by decide, by rw [h3.sys.owner]; exact h6, 1, by rw [h3.sys.owner]; exact h5, hn⟩
  have hr00 : ∀ i : Fin 2, recvsIn tinyG s (fun _ => hoodOf tinyG) 0 i i = [] := by
    intro i
    apply eq_empty
    intro c hc
    exact ((hk _ _ _ _).1 hc).1 rfl
  have hs10 : sendsIn tinyG s (fun _ => hoodOf tinyG) 0 1 0 = [2] := by rw [hR.eq]; exact hr01
  have hs11 : sendsIn tinyG s (fun _ => hoodOf tinyG) 0 1 1 = [] := by rw [hR.eq]; exact hr00 1
  have hsp : sendPosts false (sendsIn tinyG s fun _ => hoodOf tinyG) 1 0 = [⟨⟨1, 0, 0⟩, 0, [2]⟩] := by
    show ([0, 1] : List (Fin 2)).flatMap _ = _
    simp [hs10, hs11, posts]
  have hrp : recvPosts false (recvsIn tinyG s fun _ => hoodOf tinyG) 0 0 = [⟨⟨1, 0, 0⟩, 0, [2]⟩] := by
    show ([0, 1] : List (Fin 2)).flatMap _ = _
    simp [hr01, hr00, posts]
  have run : ∀ {e : Event 2 Nat} {es a b c}, SplitRun tinyG s false 0 (fun _ => defaultId) es a b →
      Async.Step false (sendsIn tinyG s fun _ => hoodOf tinyG) (recvsIn tinyG s fun _ => hoodOf tinyG) 0 e b c →
      SplitRun tinyG s false 0 (fun _ => defaultId) (e :: es) a c := by
    rintro e es a b c ⟨H, h1, h2⟩ h3
    have : H = fun _ => hoodOf tinyG := by
      funext r; exact (Option.some.inj (h1 r 0)).symm
    subst this
    exact ⟨_, h1, .step h2 h3⟩
  have nil : ∀ a, SplitRun tinyG s false 0 (fun _ => defaultId) [] a a := fun a => ⟨_, hH, .refl a⟩
  obtain ⟨a, ha, r1⟩ : ∃ a, a = { beforeUpdates s 0 with
      data := upd (beforeUpdates s 0).data 1 fun x => if x = 2 then 7 else (beforeUpdates s 0).data 1 x } ∧
      SplitRun tinyG s false 0 (fun _ => defaultId) [.write 1 2 7] (beforeUpdates s 0) a :=
    ⟨_, rfl, run (nil (beforeUpdates s 0)) (.write 1 2 7 fun r q _ h => absurd h (Nat.not_lt_zero _))⟩
  obtain ⟨a', ha', r2⟩ : ∃ a', a' = { a with
      sends := a.sends ++ (sendPosts false (sendsIn tinyG s fun _ => hoodOf tinyG) 1 (a.sendsStarted 1)).map
        fun x => (x, none)
      sendsStarted := upd a.sendsStarted 1 (a.sendsStarted 1 + 1) } ∧
      SplitRun tinyG s false 0 (fun _ => defaultId) [.startSends 1] a a' := ⟨_, rfl, run (nil a) (.startSends 1)⟩
  have hsa : a'.sends = [] ++ (⟨⟨1, 0, 0⟩, 0, [2]⟩, none) :: [] := by
    subst ha'; subst ha; exact congrArg (List.map _) hsp
  have hst : a'.recvs = [] ∧ a'.recvsStarted 0 = 0 ∧ a'.recvsDone 0 = 0 := by
    subst ha'; subst ha; exact ⟨rfl, rfl, rfl⟩
  have r3 := run (nil a') (.buffer hsa)
  have r4 := run r3 (.waitSends 1 (fun x hx _ => by
    rw [List.mem_singleton.1 hx]
    exact fun h => by cases h))
  have r5 := run r4 (.write 1 2 9 (fun r q h1 h2 => absurd h2 (Nat.not_lt.2 h1)))
  have r6 := run r5 (.startRecvs 0 (fun r p p' c _ h => by
    have h : r < a'.recvsStarted 0 := h
    rw [hst.2.1] at h
    exact absurd h (Nat.not_lt_zero _)))
  have r7 := run r6 (.deliver (x := ⟨⟨1, 0, 0⟩, 0, [2]⟩) (y := ⟨⟨1, 0, 0⟩, 0, [2]⟩) (s1 := []) (s2 := []) (r1 := [])
    (r2 := []) rfl (by
      show a'.recvs ++ recvPosts false _ 0 (a'.recvsStarted 0) = _
      rw [hst.1, hst.2.1, hrp]) rfl (by simp) (by simp))
  have r8 := run r7 (.waitRecvs 0 (fun x hx => by cases hx))
  refine ⟨s, _, _, a, a', _, h2, r1, r2, r8, by subst ha; rfl, ?_, ?_, by rw [h3.sys.owner]; exact h5, hn,
    by rw [h3.sys.owner]; exact h6, by subst ha; rfl, rfl, ?_⟩
  · show 0 < a'.recvsStarted 0 + 1
    omega
  · show a'.recvsStarted 0 + 1 = 1
    rw [hst.2.1]
  · subst ha'; subst ha; rfl

end Dccrg
