import Verif.Partitioner
import Verif.Props.Select
import Verif.Books
/-!
# C52: what the partitioner is told
-/
namespace Dccrg
open Cfg
variable {n : Nat} {D W : Type} {g : Cfg} {w : Owner n} {s : Sys n D W} {dflt : D} {maxTag : Nat} {i : Fin n}

/-- Contents of an array are exactly the given ones. -/
def Buf.Filled {α : Type} (b : Buf α) (l : List α) : Prop := ∀ k, b k = l[k]?

/-- Neighbors of a cell for the partitioner: those of `get_neighbors_of` except the cell itself. -/
def GraphNbrs (g : Cfg) (p : Proc n D W) (c : Nat) (N : List Nat) : Prop :=
  ∃ l, getNeighborsOf g p c defaultId = some l ∧ N = (l.map Prod.fst).filter fun b => b != c

theorem Buf.filled_empty {α : Type} : (Buf.empty : Buf α).Filled [] := fun _ => rfl

theorem Buf.Filled.push {α : Type} {b : Buf α} {l : List α} (h : b.Filled l) (v : α) {k : Nat} (hk : k = l.length) :
    (b.set k v).Filled (l ++ [v]) := by
  subst hk
  intro k
  unfold Buf.set
  split
  · rename_i e; subst e; simp
  · rename_i e
    rw [h k]
    rcases Nat.lt_or_ge k l.length with hk | hk
    · rw [List.getElem?_append_left hk]
    · rw [List.getElem?_eq_none hk, List.getElem?_eq_none (by simp; omega)]

theorem Buf.Filled.modify {α : Type} {b : Buf α} {l : List α} {v v' : α} (h : b.Filled (l ++ [v])) {k : Nat}
    (hk : k = l.length) : (b.set k v').Filled (l ++ [v']) := by
  subst hk
  intro k
  unfold Buf.set
  split
  · rename_i e; subst e; simp
  · rename_i e
    rw [h k]
    rcases Nat.lt_or_ge k l.length with hk | hk
    · rw [List.getElem?_append_left hk, List.getElem?_append_left hk]
    · rw [List.getElem?_eq_none (by simp; omega), List.getElem?_eq_none (by simp; omega)]

theorem countNbrs_eq {c : Nat} {l : List Nat} (h : ∀ b ∈ l, b ≠ 0) (k : Nat) :
    l.foldl (fun k b => if b ≠ 0 ∧ b ≠ c then k + 1 else k) k = k + (l.filter fun b => b != c).length := by
  induction l generalizing k with
  | nil => rfl
  | cons b l ih =>
    rw [List.foldl_cons, ih (fun x hx => h x (List.mem_cons_of_mem _ hx)), List.filter_cons]
    by_cases hb : b = c
    · rw [if_neg (fun e => e.2 hb), if_neg (by simpa using hb)]
    · rw [if_pos ⟨h b (List.mem_cons_self ..), hb⟩, if_pos (by simpa using hb), List.length_cons]
      omega

/-- Lists of neighbors of local cells. -/
theorem Inv.nbrsAt (hw : g.WF) (h : Inv g w s) {c : Nat} (hc : ((s i).data c).isSome = true) :
    ∃ l, Dccrg.nbrsAt g (s i) c = .ok l ∧ (∀ b ∈ l, b ≠ 0 ∧ exist w b = true) ∧
      GraphNbrs g (s i) c (l.filter fun b => b != c) := by
  have hH : hoodFor g (s i) defaultId = some (hoodOf g) := if_pos rfl
  have he : exist w c = true := exist_of ((h.sys.placed i c).1 hc)
  obtain ⟨of, to, h1, -, h2, -, h3⟩ := h.nbr_ne_zero hw hH he
  refine ⟨of.map Prod.fst, ?_, ?_, _, h1, rfl⟩
  · unfold Dccrg.nbrsAt
    rw [h1]
  · intro b hb
    have := h3 b (Or.inl ((h2 b).1 hb))
    exact ⟨this.1, exist_iff.2 this.2⟩

theorem fillNbrs_ok {p : Proc n D W} {c : Nat} {l : List Nat} (h : ∀ b ∈ l, b ≠ 0 ∧ (p.owner b).isSome = true)
    {t : NbrBufs n} {ns bs : List Nat} {qs : List (Fin n)} {k : Nat}
    (h1 : t.nums.Filled (ns ++ [k])) (h2 : t.nbrs.Filled bs) (h3 : t.procs.Filled qs) (h4 : t.cur = bs.length)
    (h5 : qs.map some = bs.map p.owner) :
    ∃ t' qs', fillNbrs p c ns.length l t = .ok t' ∧ t'.nums.Filled (ns ++ [k + (l.filter fun b => b != c).length]) ∧
      t'.nbrs.Filled (bs ++ l.filter fun b => b != c) ∧ t'.procs.Filled qs' ∧
      t'.cur = (bs ++ l.filter fun b => b != c).length ∧
      qs'.map some = (bs ++ l.filter fun b => b != c).map p.owner := by
  induction l generalizing t bs qs k with
  | nil => exact ⟨t, qs, rfl, h1, by simpa using h2, h3, by simpa using h4, by simpa using h5⟩
  | cons b l ih =>
    have hb := h b (List.mem_cons_self ..)
    have hl := fun x hx => h x (List.mem_cons_of_mem b hx)
    unfold fillNbrs
    by_cases hbc : b = c
    · rw [if_pos (Or.inr hbc), List.filter_cons, if_neg (by simpa using hbc)]
      exact ih hl h1 h2 h3 h4 h5
    · rw [if_neg (by rintro (e | e); exact hb.1 e; exact hbc e), List.filter_cons, if_pos (by simpa using hbc)]
      obtain ⟨q, hq⟩ := Option.isSome_iff_exists.1 hb.2
      rw [hq]
      have hk : (t.nums ns.length).getD 0 = k := by rw [h1]; simp
      have hlen : qs.length = bs.length := by have := congrArg List.length h5; simpa using this
      have := ih hl (t := ⟨t.cur + 1, t.nums.set ns.length ((t.nums ns.length).getD 0 + 1), t.nbrs.set t.cur b,
          t.procs.set t.cur q⟩) (k := k + 1) (bs := bs ++ [b]) (qs := qs ++ [q])
        (by rw [hk]; exact h1.modify rfl) (h2.push b h4) (h3.push q (by rw [hlen]; exact h4)) (by simp [h4])
        (by simp [h5, hq])
      obtain ⟨t', qs', e, e1, e2, e3, e4, e5⟩ := this
      have ea : bs ++ [b] ++ (l.filter fun b => b != c) = bs ++ b :: l.filter fun b => b != c := by simp
      rw [ea] at e2 e4 e5
      refine ⟨t', qs', e, ?_, e2, e3, e4, e5⟩
      rw [List.length_cons]
      rwa [show k + 1 + (l.filter fun b => b != c).length = k + ((l.filter fun b => b != c).length + 1) by omega] at e1

section
variable (hw : g.WF) (h : Inv g w s)

/-- Chosen lists of neighbors. -/
theorem Inv.lists (hw : g.WF) (h : Inv g w s) (i : Fin n) : ∃ L : Nat → List Nat, ∀ c, ((s i).data c).isSome = true →
    Dccrg.nbrsAt g (s i) c = .ok (L c) ∧ (∀ b ∈ L c, b ≠ 0 ∧ exist w b = true) ∧
      GraphNbrs g (s i) c ((L c).filter fun b => b != c) := by
  refine ⟨fun c => if hc : ((s i).data c).isSome = true then (h.nbrsAt hw hc).choose else [], fun c hc => ?_⟩
  simp only [dif_pos hc]
  exact (h.nbrsAt hw hc).choose_spec

end

theorem fillNumbers_ok {p : Proc n D W} {L : Nat → List Nat} {cells : List Nat}
    (hc : ∀ c ∈ cells, p.has c = true ∧ nbrsAt g p c = .ok (L c) ∧ ∀ b ∈ L c, b ≠ 0) {b : Buf Nat} {ns : List Nat}
    (hb : b.Filled ns) : ∃ b', fillNumbers g p cells ns.length b = .ok b' ∧
      b'.Filled (ns ++ cells.map fun c => ((L c).filter fun b => b != c).length) := by
  induction cells generalizing b ns with
  | nil => exact ⟨b, rfl, by simpa using hb⟩
  | cons c cs ih =>
    obtain ⟨h1, h2, h3⟩ := hc c (List.mem_cons_self ..)
    unfold fillNumbers
    rw [if_neg (by rw [h1]; decide), h2]
    show ∃ b', fillNumbers g p cs (ns.length + 1) (b.set ns.length (countNbrs c (L c))) = .ok b' ∧ _
    have e : countNbrs c (L c) = ((L c).filter fun b => b != c).length := by
      unfold countNbrs; rw [countNbrs_eq h3, Nat.zero_add]
    rw [e]
    have := ih (fun x hx => hc x (List.mem_cons_of_mem _ hx)) (hb.push ((L c).filter fun b => b != c).length rfl)
    simpa using this

theorem fillLists_ok {p : Proc n D W} {L : Nat → List Nat} {cells : List Nat}
    (hc : ∀ c ∈ cells, p.has c = true ∧ nbrsAt g p c = .ok (L c) ∧ ∀ b ∈ L c, b ≠ 0 ∧ (p.owner b).isSome = true)
    {t : NbrBufs n} {ns bs : List Nat} {qs : List (Fin n)}
    (h1 : t.nums.Filled ns) (h2 : t.nbrs.Filled bs) (h3 : t.procs.Filled qs) (h4 : t.cur = bs.length)
    (h5 : qs.map some = bs.map p.owner) :
    ∃ t' qs', fillLists g p cells ns.length t = .ok t' ∧
      t'.nums.Filled (ns ++ cells.map fun c => ((L c).filter fun b => b != c).length) ∧
      t'.nbrs.Filled (bs ++ cells.flatMap fun c => (L c).filter fun b => b != c) ∧ t'.procs.Filled qs' ∧
      qs'.map some = (bs ++ cells.flatMap fun c => (L c).filter fun b => b != c).map p.owner := by
  induction cells generalizing t ns bs qs with
  | nil => exact ⟨t, qs, rfl, by simpa using h1, by simpa using h2, h3, by simpa using h5⟩
  | cons c cs ih =>
    obtain ⟨a1, a2, a3⟩ := hc c (List.mem_cons_self ..)
    unfold fillLists
    rw [if_neg (by rw [a1]; decide), a2]
    show ∃ t' qs', (fillNbrs p c ns.length (L c) { t with nums := t.nums.set ns.length 0 }).bind _ = .ok t' ∧ _
    obtain ⟨t', qs', e, e1, e2, e3, e4, e5⟩ := fillNbrs_ok (c := c) a3
      (t := { t with nums := t.nums.set ns.length 0 }) (h1.push 0 rfl) h2 h3 h4 h5
    rw [e]
    have := ih (fun x hx => hc x (List.mem_cons_of_mem _ hx)) e1 e2 e3 e4 e5
    simpa [Out.bind] using this

/-- C52: when the partitioner asks for neighbors of local cells, then as many neighbors are written as was told before,
one after another: for each cell the neighbors from `get_neighbors_of` other than the cell itself, along with processes
that own them. -/
theorem C52_graph (hw : g.WF) (h : Reachable g dflt maxTag s) {cells : List Nat}
    (hc : ∀ c ∈ cells, ((s i).data c).isSome = true) :
    ∃ (N : Nat → List Nat) (nums : Buf Nat) (t : NbrBufs n) (procs : List (Fin n)),
      (∀ c ∈ cells, GraphNbrs g (s i) c (N c) ∧ ∀ b ∈ N c, b ≠ 0 ∧ b ≠ c) ∧
      fillNumbers g (s i) cells 0 .empty = .ok nums ∧ nums.Filled (cells.map fun c => (N c).length) ∧
      fillLists g (s i) cells 0 ⟨0, .empty, .empty, .empty⟩ = .ok t ∧ t.nums.Filled (cells.map fun c => (N c).length) ∧
      t.nbrs.Filled (cells.flatMap N) ∧ t.procs.Filled procs ∧
      procs.map some = (cells.flatMap N).map fun b => getProcess (s i) b := by
  obtain ⟨w, hi⟩ := h.inv hw (by have := i.2; omega)
  obtain ⟨L, hL⟩ := hi.lists hw i
  obtain ⟨nums, e1, e2⟩ := fillNumbers_ok (g := g) (p := s i) (L := L) (cells := cells)
    (fun c hx => ⟨hc c hx, (hL c (hc c hx)).1, fun b hb => ((hL c (hc c hx)).2.1 b hb).1⟩) Buf.filled_empty
  obtain ⟨t, qs, e3, e4, e5, e6, e7⟩ := fillLists_ok (g := g) (p := s i) (L := L) (cells := cells)
    (fun c hx => ⟨hc c hx, (hL c (hc c hx)).1, fun b hb => ⟨((hL c (hc c hx)).2.1 b hb).1, by
      obtain ⟨j, hj⟩ := exist_iff.1 ((hL c (hc c hx)).2.1 b hb).2
      rw [hi.sys.owner, hj]; rfl⟩⟩) (t := ⟨0, .empty, .empty, .empty⟩) Buf.filled_empty Buf.filled_empty Buf.filled_empty rfl rfl
  refine ⟨fun c => (L c).filter fun b => b != c, nums, t, qs, fun c hx => ⟨(hL c (hc c hx)).2.2, fun b hb => ?_⟩,
    e1, by simpa using e2, e3, by simpa using e4, by simpa using e5, e6, by simpa [getProcess] using e7⟩
  obtain ⟨h1, h2⟩ := List.mem_filter.1 hb
  exact ⟨((hL c (hc c hx)).2.1 b h1).1, by simpa using h2⟩

/-- C52: asking about cells of other processes is an error. -/
theorem C52_fatal (hw : g.WF) (h : Reachable g dflt maxTag s) {cells : List Nat} {c : Nat} (hc : c ∈ cells)
    (hd : ((s i).data c).isSome = false) :
    (∀ k b, fillNumbers g (s i) cells k b = .throws) ∧ ∀ k t, fillLists g (s i) cells k t = .throws := by
  obtain ⟨w, hi⟩ := h.inv hw (by have := i.2; omega)
  obtain ⟨L, hL⟩ := hi.lists hw i
  induction cells with
  | nil => cases hc
  | cons a cs ih =>
    by_cases ha : ((s i).data a).isSome = true
    · have hne : c ∈ cs := by
        rcases List.mem_cons.1 hc with e | e
        · subst e; rw [ha] at hd; cases hd
        · exact e
      obtain ⟨i1, i2⟩ := ih hne
      have ha' : ¬ (s i).has a = false := by unfold Proc.has; rw [ha]; decide
      constructor
      · intro k b
        unfold fillNumbers
        rw [if_neg ha', (hL a ha).1]
        exact i1 _ _
      · intro k t
        unfold fillLists
        rw [if_neg ha', (hL a ha).1]
        show (fillNbrs (s i) a k (L a) _).bind _ = _
        have : ∀ (l : List Nat) (t : NbrBufs n), (∀ b ∈ l, exist w b = true) → ∃ t', fillNbrs (s i) a k l t = .ok t' := by
          intro l
          induction l with
          | nil => exact fun t _ => ⟨t, rfl⟩
          | cons b l ihl =>
            intro t hb
            unfold fillNbrs
            split
            · exact ihl _ fun x hx => hb x (List.mem_cons_of_mem _ hx)
            · obtain ⟨q, hq⟩ := exist_iff.1 (hb b (List.mem_cons_self ..))
              rw [hi.sys.owner, hq]
              exact ihl _ fun x hx => hb x (List.mem_cons_of_mem _ hx)
        obtain ⟨t', e⟩ := this (L a) { t with nums := t.nums.set k 0 } fun b hb => ((hL a ha).2.1 b hb).2
        rw [e]
        exact i2 _ _
    · have ha' : (s i).has a = false := by unfold Proc.has; simpa using ha
      constructor
      · intro k b; unfold fillNumbers; rw [if_pos ha']
      · intro k t; unfold fillLists; rw [if_pos ha']

/-! ## Hypergraph -/

theorem hyperNumbers_ok {p : Proc n D W} {L : Nat → List Nat} {cells : List Nat}
    (hc : ∀ c ∈ cells, nbrsAt g p c = .ok (L c) ∧ ∀ b ∈ L c, b ≠ 0) (k : Nat) :
    fillHyperNumbers.go g p cells k =
      .ok (k + (cells.map fun c => 1 + ((L c).filter fun b => b != c).length).sum) := by
  induction cells generalizing k with
  | nil => rfl
  | cons c cs ih =>
    obtain ⟨h1, h2⟩ := hc c (List.mem_cons_self ..)
    unfold fillHyperNumbers.go
    rw [h1]
    show fillHyperNumbers.go g p cs _ = _
    rw [countNbrs_eq h2, ih fun x hx => hc x (List.mem_cons_of_mem _ hx), List.map_cons, List.sum_cons]
    congr 1
    omega

theorem fillConns_ok {c : Nat} {l : List Nat} (h : ∀ b ∈ l, b ≠ 0) {t : HyperBufs} {cs : List Nat}
    (h1 : t.conns.Filled cs) (h2 : t.cur = cs.length) :
    (fillConns c l t).conns.Filled (cs ++ l.filter fun b => b != c) ∧
      (fillConns c l t).cur = (cs ++ l.filter fun b => b != c).length ∧
      (fillConns c l t).edges = t.edges ∧ (fillConns c l t).offsets = t.offsets := by
  induction l generalizing t cs with
  | nil => exact ⟨by simpa [fillConns] using h1, by simpa [fillConns] using h2, rfl, rfl⟩
  | cons b l ih =>
    have hl := fun x hx => h x (List.mem_cons_of_mem b hx)
    unfold fillConns
    rw [List.foldl_cons]
    by_cases hb : b = c
    · rw [if_pos (Or.inr hb), List.filter_cons, if_neg (by simpa using hb)]
      exact ih hl h1 h2
    · rw [if_neg (by rintro (e | e); exact h b (List.mem_cons_self ..) e; exact hb e), List.filter_cons,
        if_pos (by simpa using hb)]
      have := ih hl (t := { t with cur := t.cur + 1, conns := t.conns.set t.cur b }) (h1.push b h2) (by simp [h2])
      simpa [fillConns] using this

theorem fillHyper_ok {p : Proc n D W} {L : Nat → List Nat} {cells : List Nat}
    (hc : ∀ c ∈ cells, nbrsAt g p c = .ok (L c) ∧ ∀ b ∈ L c, b ≠ 0) {t : HyperBufs} {es os cs : List Nat}
    (h1 : t.edges.Filled es) (h2 : t.offsets.Filled os) (h3 : t.conns.Filled cs) (h4 : t.cur = cs.length)
    (h5 : os.length = es.length) :
    ∃ t', fillHyper g p cells es.length t = .ok t' ∧ t'.edges.Filled (es ++ cells) ∧
      t'.offsets.Filled (os ++ (List.range cells.length).map fun j =>
        cs.length + ((cells.take j).map fun c => 1 + ((L c).filter fun b => b != c).length).sum) ∧
      t'.conns.Filled (cs ++ cells.flatMap fun c => c :: (L c).filter fun b => b != c) ∧
      t'.cur = cs.length + (cells.map fun c => 1 + ((L c).filter fun b => b != c).length).sum := by
  induction cells generalizing t es os cs with
  | nil => exact ⟨t, rfl, by simpa using h1, by simpa using h2, by simpa using h3, by simpa using h4⟩
  | cons c cells ih =>
    obtain ⟨a1, a2⟩ := hc c (List.mem_cons_self ..)
    unfold fillHyper
    rw [a1]
    show ∃ t', fillHyper g p cells (es.length + 1) (fillConns c (L c) _) = .ok t' ∧ _
    obtain ⟨b1, b2, b3, b4⟩ := fillConns_ok (c := c) a2 (t := ⟨t.cur + 1, t.edges.set es.length c,
      t.offsets.set es.length t.cur, t.conns.set t.cur c⟩) (h3.push c h4) (by simp [h4])
    generalize fillConns c (L c) ⟨t.cur + 1, t.edges.set es.length c, t.offsets.set es.length t.cur,
      t.conns.set t.cur c⟩ = u at b1 b2 b3 b4
    have := ih (fun x hx => hc x (List.mem_cons_of_mem _ hx)) (t := u) (es := es ++ [c]) (os := os ++ [t.cur])
      (by rw [b3]; exact h1.push c rfl) (by rw [b4]; exact h2.push t.cur h5.symm) b1 b2 (by simp [h5])
    obtain ⟨t', e, e1, e2, e3, e4⟩ := this
    refine ⟨t', by simpa using e, by simpa using e1, ?_, by simpa using e3, ?_⟩
    · rw [List.length_cons, List.range_succ_eq_map, List.map_cons, List.map_map]
      have he : os ++ [t.cur] ++ (List.range cells.length).map (fun j => (cs ++ [c] ++ (L c).filter fun b => b != c).length +
          ((cells.take j).map fun c => 1 + ((L c).filter fun b => b != c).length).sum) =
          os ++ (cs.length + (((c :: cells).take 0).map fun c => 1 + ((L c).filter fun b => b != c).length).sum) ::
          (List.range cells.length).map ((fun j => cs.length + (((c :: cells).take j).map fun c =>
            1 + ((L c).filter fun b => b != c).length).sum) ∘ Nat.succ) := by
        rw [List.append_assoc]
        congr 1
        rw [List.singleton_append]
        rw [List.cons.injEq]
        constructor
        · simpa using h4
        · apply List.map_congr_left
          intro j _
          simp only [Function.comp, List.take_succ_cons, List.map_cons, List.sum_cons, List.length_append,
            List.length_singleton]
          omega
      rw [← he]
      exact e2
    · rw [e4, List.map_cons, List.sum_cons]
      simp only [List.length_append, List.length_singleton]
      omega

theorem edgeWeights_ok {p : Proc n D W} {L : Nat → List Nat} {cells : List Nat}
    (hc : ∀ c ∈ cells, nbrsAt g p c = .ok (L c) ∧ ∀ b ∈ L c, b ≠ 0) {t : Buf Nat × Buf Nat} {es ws : List Nat}
    (h1 : t.1.Filled es) (h2 : t.2.Filled ws) (h3 : ws.length = es.length) :
    ∃ t', fillEdgeWeights.go g p cells es.length t = .ok t' ∧ t'.1.Filled (es ++ cells) ∧
      t'.2.Filled (ws ++ cells.map fun c => ((L c).filter fun b => b != c).length) := by
  induction cells generalizing t es ws with
  | nil => exact ⟨t, rfl, by simpa using h1, by simpa using h2⟩
  | cons c cells ih =>
    obtain ⟨a1, a2⟩ := hc c (List.mem_cons_self ..)
    unfold fillEdgeWeights.go
    rw [a1]
    show ∃ t', fillEdgeWeights.go g p cells (es.length + 1) (t.1.set es.length c, t.2.set es.length (countNbrs c (L c))) =
      .ok t' ∧ _
    have e : countNbrs c (L c) = ((L c).filter fun b => b != c).length := by
      unfold countNbrs; rw [countNbrs_eq a2, Nat.zero_add]
    rw [e]
    have := ih (fun x hx => hc x (List.mem_cons_of_mem _ hx))
      (t := (t.1.set es.length c, t.2.set es.length ((L c).filter fun b => b != c).length)) (es := es ++ [c])
      (ws := ws ++ [((L c).filter fun b => b != c).length])
      (h1.push c rfl) (h2.push _ h3.symm) (by simp [h3])
    simpa using this

/-- C52: the hypergraph has an edge for each local cell. As many connections are written as was told before, one after
another: each edge has connections to the cell and to its neighbors, and offsets tell where connections of each edge
begin. The weight of an edge is the number of neighbors. -/
theorem C52_hypergraph (hw : g.WF) (h : Reachable g dflt maxTag s) {mine : List Nat}
    (hm : ∀ c ∈ mine, ((s i).data c).isSome = true) :
    ∃ (N : Nat → List Nat) (k : Nat) (t : HyperBufs) (e : Buf Nat × Buf Nat),
      (∀ c ∈ mine, GraphNbrs g (s i) c (N c) ∧ ∀ b ∈ N c, b ≠ 0 ∧ b ≠ c) ∧
      fillHyperNumbers g (s i) mine = .ok (getNumberOfCells mine, k) ∧
      fillHyperLists g (s i) mine (getNumberOfCells mine) k = .ok t ∧
      t.edges.Filled mine ∧ t.conns.Filled (mine.flatMap fun c => c :: N c) ∧
      k = (mine.flatMap fun c => c :: N c).length ∧
      t.offsets.Filled ((List.range mine.length).map fun j => ((mine.take j).flatMap fun c => c :: N c).length) ∧
      fillEdgeWeights g (s i) mine (getNumberOfCells mine) = .ok e ∧ e.1.Filled mine ∧
      e.2.Filled (mine.map fun c => (N c).length) := by
  obtain ⟨w, hi⟩ := h.inv hw (by have := i.2; omega)
  obtain ⟨L, hL⟩ := hi.lists hw i
  have hc : ∀ c ∈ mine, nbrsAt g (s i) c = .ok (L c) ∧ ∀ b ∈ L c, b ≠ 0 := fun c hx =>
    ⟨(hL c (hm c hx)).1, fun b hb => ((hL c (hm c hx)).2.1 b hb).1⟩
  have hlen : ∀ l : List Nat, (l.flatMap fun c => c :: (L c).filter fun b => b != c).length =
      (l.map fun c => 1 + ((L c).filter fun b => b != c).length).sum := by
    intro l
    rw [List.length_flatMap]
    congr 1
    apply List.map_congr_left
    intro c _
    rw [List.length_cons]; omega
  obtain ⟨t, e, e1, e2, e3, e4⟩ := fillHyper_ok hc (t := ⟨0, .empty, .empty, .empty⟩) Buf.filled_empty Buf.filled_empty
    Buf.filled_empty rfl rfl
  obtain ⟨u, f, f1, f2⟩ := edgeWeights_ok hc (t := (.empty, .empty)) Buf.filled_empty Buf.filled_empty rfl
  refine ⟨fun c => (L c).filter fun b => b != c, (mine.map fun c => 1 + ((L c).filter fun b => b != c).length).sum, t, u,
    fun c hx => ⟨(hL c (hm c hx)).2.2, fun b hb => ?_⟩, ?_, ?_, by simpa using e1, by simpa using e3, (hlen mine).symm, ?_,
    ?_, by simpa using f1, by simpa using f2⟩
  · obtain ⟨h1, h2⟩ := List.mem_filter.1 hb
    exact ⟨(hc c hx).2 b h1, by simpa using h2⟩
  · unfold fillHyperNumbers
    rw [hyperNumbers_ok hc, Nat.zero_add]
    rfl
  · unfold fillHyperLists
    rw [if_neg (show ¬ getNumberOfCells mine ≠ mine.length from not_not_intro rfl)]
    have e : fillHyper g (s i) mine 0 ⟨0, .empty, .empty, .empty⟩ = .ok t := e
    rw [e]
    show (if t.cur ≠ _ then _ else _) = _
    rw [if_neg]
    rw [e4]
    simp
  · simp only [hlen]
    simpa using e2
  · unfold fillEdgeWeights
    rw [if_neg (show ¬ getNumberOfCells mine ≠ mine.length from not_not_intro rfl)]
    exact f

/-- C52: the partitioner is told every local cell and its weight. -/
theorem C52_cells (hw : g.WF) (h : Reachable g dflt maxTag s) (one : W) {mine : List Nat}
    (hm : ∀ c ∈ mine, ((s i).data c).isSome = true) :
    ∃ ws : List W, (fillCellList (s i) one mine).2.1.Filled mine ∧ getNumberOfCells mine = mine.length ∧
      (fillCellList (s i) one mine).2.2.Filled ws ∧ ws.map some = mine.map (getWeight g one i (s i)) := by
  obtain ⟨w, hi⟩ := h.inv hw (by have := i.2; omega)
  have key : ∀ (l : List Nat) (x : Nat × Buf Nat × Buf W) (a : List Nat) (b : List W), x.1 = a.length → x.1 = b.length →
      x.2.1.Filled a → x.2.2.Filled b →
      (l.foldl (fun x c => (x.1 + 1, x.2.1.set x.1 c, x.2.2.set x.1 (((s i).weights c).getD one))) x).2.1.Filled (a ++ l) ∧
      (l.foldl (fun x c => (x.1 + 1, x.2.1.set x.1 c, x.2.2.set x.1 (((s i).weights c).getD one))) x).2.2.Filled
        (b ++ l.map fun c => ((s i).weights c).getD one) := by
    intro l
    induction l with
    | nil => intro x a b _ _ h1 h2; exact ⟨by simpa using h1, by simpa using h2⟩
    | cons c l ih =>
      intro x a b h1 h2 h3 h4
      rw [List.foldl_cons]
      have := ih (x.1 + 1, x.2.1.set x.1 c, x.2.2.set x.1 (((s i).weights c).getD one)) (a ++ [c])
        (b ++ [((s i).weights c).getD one]) (by simp [h1]) (by simp [h2]) (h3.push c h1) (h4.push _ h2)
      simpa using this
  obtain ⟨k1, k2⟩ := key mine (0, .empty, .empty) [] [] rfl rfl Buf.filled_empty Buf.filled_empty
  refine ⟨mine.map fun c => ((s i).weights c).getD one, by simpa [fillCellList] using k1, rfl,
    by simpa [fillCellList] using k2, ?_⟩
  rw [List.map_map]
  apply List.map_congr_left
  intro c hc
  unfold getWeight
  rw [(ownLeaf_iff hw hi i c).2 ((hi.sys.placed i c).1 (hm c hc))]
  rfl

/-- The demo after initialization: cell 1 of process 0 has neighbors on both processes. -/
example : ∃ (s : Sys 2 Nat Nat), Reachable tinyG 0 146 s ∧ ((s 0).data 1).isSome = true ∧ ((s 1).data 1).isSome = false ∧
    NbrOf tinyG (s 0) defaultId 1 2 := by
  obtain ⟨s, -, h2, h3, -, -, -, h4, h5⟩ := tiny_init
  refine ⟨s, h2, (h3.sys.placed 0 1).2 h4, ?_,
    (h3.nbrOf_iff tiny_wf (if_pos rfl) (exist_of h4)).2 ⟨exist_of h5, tiny_linked.1⟩⟩
  cases h : ((s 1).data 1).isSome with
  | false => rfl
  | true =>
    have := (h3.sys.placed 1 1).1 h
    rw [h4] at this
    exact absurd this (by decide)

end Dccrg
