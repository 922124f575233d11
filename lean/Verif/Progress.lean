import Verif.Hist
/-!
# Operations succeed

With enough message tags no operation throws, aborts or waits forever in a reachable state.
-/
namespace Dccrg
open Cfg
variable {n : Nat} {D W : Type} {g : Cfg} {w : Owner n} {s : Sys n D W}

/-- Operations whose arguments are not rejected by an exception: the neighborhood used in an update
exists. -/
def Op.Known (g : Cfg) (s : Sys n D W) : Op n D W → Prop
  | .update id => ∀ i, (hoodFor g (s i) id).isSome = true
  | _ => True

theorem addHood_ok (hw : g.WF) (h : Inv g w s) (dflt : D) {maxTag : Nat} (hm : FitsTags maxTag w) (i : Fin n)
    (id : Int) (items : List (V3 Int)) : ∃ b p', addHood g dflt maxTag i (s i) id items = .ok (b, p') := by
  unfold addHood
  split
  · exact ⟨_, _, rfl⟩
  · split
    · exact ⟨_, _, rfl⟩
    · split
      · exact ⟨_, _, rfl⟩
      · rename_i h3
        have h4 : items.all (itemOk g) = true := by simpa using h3
        rw [List.all_eq_true] at h4
        have hh : ∀ x ∈ ({ s i with hoods := [(id, items)] } : Proc n D W).hoods, ∀ o ∈ x.2, o ∈ hoodOf g := by
          intro x hx o ho
          rw [List.mem_singleton.1 hx] at ho
          exact itemOk_iff.1 (h4 o ho)
        have ht := h.sys.tiled
        have hb := h.sys.balanced
        have hp := h.sys.placed i
        rw [← h.sys.owner i] at ht hb hp hm
        rw [if_neg (by rw [neighborsFound_ok hw (p := { s i with hoods := [(id, items)] }) ht hb hh]; simp),
          if_neg (by rw [tagsFit_ok hw (p := { s i with hoods := [(id, items)] }) ht hb hh hp hm]; simp)]
        exact ⟨_, _, rfl⟩

theorem step_ok (hw : g.WF) (hn : 0 < n) (dflt : D) {maxTag : Nat} (h : Inv g w s) (hm : g.last ≤ maxTag) (op : Op n D W)
    (ho : op.Ok s) (hk : op.Known g s) : ∃ s', step g dflt maxTag s op = .ok s' := by
  have ht := h.sys.tiled
  have hb := h.sys.balanced
  have hf : FitsTags maxTag w := fitsTags_mono hm (fitsTags_last ht.valid)
  cases op with
  | refine i c =>
    show ∃ s', s.ask i _ = _
    rw [h.sys.owner i]
    unfold Sys.ask
    by_cases hi : w c = some i
    · have hle := lvl_le (ht.valid c (exist_of hi))
      by_cases hl : g.lvl c = g.maxLvl
      · obtain ⟨r', h1, -⟩ := refineCompletely_max (r := (s i).req) hw ht (h.sys.placed i) hi hl
        rw [h1]; exact ⟨_, rfl⟩
      · by_cases hr : Refused g w (s i).req c
        · rw [refineCompletely_refused hw ht hb (h.sys.placed i) hi (by omega) hr]; exact ⟨_, rfl⟩
        · rw [refineCompletely_ok hw ht hb (h.sys.placed i) hi (by omega) hr]; exact ⟨_, rfl⟩
    · rw [refineCompletely_false (h.sys.placed i) hi]; exact ⟨_, rfl⟩
  | unrefine i c =>
    show ∃ s', s.ask i _ = _
    rw [h.sys.owner i]
    unfold Sys.ask
    by_cases hi : w c = some i
    · obtain ⟨b, r', h1, -⟩ := unrefineCompletely_spec (r := (s i).req) hw ht hb (h.sys.placed i) hi
      rw [h1]; exact ⟨_, rfl⟩
    · rw [unrefineCompletely_false (h.sys.placed i) hi]; exact ⟨_, rfl⟩
  | dontRefine i c =>
    show ∃ s', s.ask i _ = _
    rw [h.sys.owner i]
    obtain ⟨b, r', h1, -⟩ := dontRefine_spec (r := (s i).req) (c := c) ht
    rw [h1]; exact ⟨_, rfl⟩
  | dontUnrefine i c =>
    show ∃ s', s.ask i _ = _
    rw [h.sys.owner i]
    obtain ⟨b, r', h1, -⟩ := dontUnrefine_spec (r := (s i).req) (c := c) hw ht
    rw [h1]; exact ⟨_, rfl⟩
  | pin i c q => exact ⟨_, rfl⟩
  | unpin i c => exact ⟨_, rfl⟩
  | unpinLocal i => exact ⟨_, rfl⟩
  | setWeight i c x => exact ⟨_, rfl⟩
  | write i c v => exact ⟨_, rfl⟩
  | clearRefined i => exact ⟨_, rfl⟩
  | unpinAll => exact ⟨_, rfl⟩
  | removeHood id => exact ⟨_, rfl⟩
  | update id =>
    show ∃ s', (updateRemote g maxTag id s).bind _ = _
    obtain ⟨H, hH⟩ := Option.isSome_iff_exists.1 (hk ⟨0, hn⟩)
    obtain ⟨res, h1, -⟩ := updateRemote_spec hw h hf
      (fun i => (hoodFor_agree h i ⟨0, hn⟩ id).trans hH) (hoodFor_sub h hH)
    rw [h1]; exact ⟨_, rfl⟩
  | addHood id items =>
    have := fun i => addHood_ok hw h dflt hf i id items
    show ∃ s', (Out.collect _).bind _ = _
    rw [Out.collect_ok (fun i => (this i).choose_spec.choose_spec)]
    exact ⟨_, rfl⟩
  | stop sorted =>
    have ht' := (plan_of_requests h.req).tiled hw ht (newOwner_exist hw ht (plan_of_requests h.req))
    obtain ⟨res, h1, -⟩ := stopRefining_spec hw dflt sorted h.sys.core h.req hf
      (fitsTags_mono hm (fitsTags_last ht'.valid))
    show ∃ s', (stopRefining g dflt maxTag sorted s).bind _ = _
    rw [h1]; exact ⟨_, rfl⟩
  | balance z =>
    have hz := ho ⟨0, hn⟩
    rw [h.sys.owner] at hz
    obtain ⟨res, h1, -⟩ := balanceLoad_spec hw dflt hz h.sys hf
      (fitsTags_mono hm (fitsTags_last fun c hc => ht.valid c (by rw [exist_newHome] at hc; exact hc)))
    exact ⟨res, h1⟩

end Dccrg
