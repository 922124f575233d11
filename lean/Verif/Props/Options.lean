import Verif.Partitioner
/-!
# C61: options of hierarchical partitioning
-/
namespace Dccrg

/-- Levels that can be made with functions of the API. -/
inductive Levels.Made : Levels → Prop
  | start : Made ⟨[], []⟩
  | add {t t' : Levels} {k : Int} : Made t → t.add k = .ok t' → Made t'
  | remove {t : Levels} {l : Int} : Made t → Made (t.remove l)
  | addOption {t t' : Levels} {l : Int} {name value : String} : Made t → t.addOption l name value = .ok t' → Made t'
  | removeOption {t : Levels} {l : Int} {name : String} : Made t → Made (t.removeOption l name)

/-- The name is in the result of `get_partitioning_options`. -/
def Levels.Has (t : Levels) (l : Int) (name : String) : Prop := ∃ ns, t.names l = .ok ns ∧ name ∈ ns

/-- Option of a level. -/
def Levels.opt (t : Levels) (l : Nat) (name : String) : Option String := (t.options[l]?.getD []).lookup name

theorem lookup_isSome (o : Options) (name : String) : (o.lookup name).isSome = true ↔ name ∈ o.map Prod.fst := by
  induction o with
  | nil => simp
  | cons x o ih =>
    obtain ⟨a, v⟩ := x
    rw [List.lookup_cons, List.map_cons, List.mem_cons, ← ih]
    cases h : name == a with
    | true => simp only [Option.isSome_some, true_iff]; exact Or.inl (by simpa using h)
    | false => simp at h; simp [h]

theorem lookup_erase (o : Options) (name x : String) :
    (o.erase name).lookup x = if x = name then none else o.lookup x := by
  unfold Options.erase
  induction o with
  | nil => simp
  | cons y o ih =>
    obtain ⟨a, v⟩ := y
    rw [List.filter_cons]
    by_cases ha : a = name
    · subst ha
      simp only [bne_self_eq_false, Bool.false_eq_true, if_false, ih, List.lookup_cons]
      by_cases hx : x = a
      · rw [if_pos hx, if_pos hx]
      · rw [if_neg hx, if_neg hx, beq_eq_false_iff_ne.2 hx]
    · have : (a != name) = true := by simpa using ha
      simp only [this, if_true, List.lookup_cons, ih]
      by_cases hx : x = a
      · subst hx
        simp [ha]
      · rw [beq_eq_false_iff_ne.2 hx]

theorem lookup_set (o : Options) (name value x : String) :
    (o.set name value).lookup x = if x = name then some value else o.lookup x := by
  unfold Options.set
  rw [List.lookup_cons]
  have := lookup_erase o name x
  unfold Options.erase at this
  rw [this]
  by_cases hx : x = name
  · simp [hx]
  · rw [beq_eq_false_iff_ne.2 hx, if_neg hx, if_neg hx]

theorem keys_erase {o : Options} (h : (o.map Prod.fst).Nodup) (name : String) :
    ((o.erase name).map Prod.fst).Nodup ∧ name ∉ (o.erase name).map Prod.fst := by
  refine ⟨(List.filter_sublist.map _).nodup h, ?_⟩
  rw [← lookup_isSome, lookup_erase, if_pos rfl]
  simp

theorem keys_set {o : Options} (h : (o.map Prod.fst).Nodup) (name value : String) :
    ((o.set name value).map Prod.fst).Nodup := by
  have := keys_erase h name
  exact List.nodup_cons.2 ⟨this.2, this.1⟩

/-- What holds of levels. -/
structure Levels.Inv (t : Levels) : Prop where
  length : t.options.length = t.perPart.length
  keys : ∀ o ∈ t.options, (o.map Prod.fst).Nodup
  pos : ∀ k ∈ t.perPart, 0 < k
  free : ∀ o ∈ t.options, ∀ name ∈ reservedOptions, name ∉ o.map Prod.fst

theorem mem_modify {α : Type} {l : List α} {k : Nat} {f : α → α} {x : α} (h : x ∈ l.modify k f) :
    x ∈ l ∨ ∃ y ∈ l, x = f y := by
  induction l generalizing k with
  | nil => cases k <;> exact absurd h (by simp)
  | cons a l ih =>
    cases k with
    | zero =>
      rw [List.modify_zero_cons] at h
      rcases List.mem_cons.1 h with h | h
      · exact Or.inr ⟨a, List.mem_cons_self .., h⟩
      · exact Or.inl (List.mem_cons_of_mem _ h)
    | succ k =>
      rw [List.modify_succ_cons] at h
      rcases List.mem_cons.1 h with h | h
      · exact Or.inl (h ▸ List.mem_cons_self ..)
      · rcases ih h with h | ⟨y, h1, h2⟩
        · exact Or.inl (List.mem_cons_of_mem _ h)
        · exact Or.inr ⟨y, List.mem_cons_of_mem _ h1, h2⟩

theorem Levels.Made.inv {t : Levels} (h : t.Made) : t.Inv := by
  induction h with
  | start => exact ⟨rfl, nofun, nofun, nofun⟩
  | @add t t' k _ h ih =>
    unfold Levels.add at h
    split at h
    · cases h
    · rename_i hk
      injection h with h
      subst h
      refine ⟨?_, ?_, ?_, ?_⟩
      · simp [ih.length]
      · intro o ho
        rcases List.mem_append.1 ho with ho | ho
        · exact ih.keys o ho
        · rw [List.mem_singleton.1 ho]; decide
      · intro x hx
        rcases List.mem_append.1 hx with hx | hx
        · exact ih.pos x hx
        · rw [List.mem_singleton.1 hx]; omega
      · intro o ho
        rcases List.mem_append.1 ho with ho | ho
        · exact ih.free o ho
        · rw [List.mem_singleton.1 ho]; decide
  | @remove t l _ ih =>
    unfold Levels.remove
    split
    · exact ih
    · rename_i hm
      have hm : ¬ (l < 0 ∨ l ≥ t.perPart.length) := by simpa [Levels.missing] using hm
      refine ⟨?_, fun o ho => ih.keys o (List.mem_of_mem_eraseIdx ho), fun x hx => ih.pos x (List.mem_of_mem_eraseIdx hx),
        fun o ho => ih.free o (List.mem_of_mem_eraseIdx ho)⟩
      show (t.options.eraseIdx _).length = (t.perPart.eraseIdx _).length
      rw [List.length_eraseIdx, List.length_eraseIdx, ih.length]
  | @addOption t t' l name value _ h ih =>
    unfold Levels.addOption at h
    split at h
    · injection h with h; subst h; exact ih
    · split at h
      · cases h
      · rename_i hr
        injection h with h
        subst h
        refine ⟨?_, ?_, ih.pos, ?_⟩
        · show (t.options.modify _ _).length = _
          rw [List.length_modify]; exact ih.length
        · intro o ho
          rcases mem_modify ho with ho | ⟨y, h1, rfl⟩
          · exact ih.keys o ho
          · exact keys_set (ih.keys y h1) _ _
        · intro o ho x hx
          rcases mem_modify ho with ho | ⟨y, h1, rfl⟩
          · exact ih.free o ho x hx
          · rw [← lookup_isSome, lookup_set, if_neg (by rintro rfl; exact hr hx), lookup_isSome]
            exact ih.free y h1 x hx
  | @removeOption t l name _ ih =>
    unfold Levels.removeOption
    split
    · exact ih
    · refine ⟨?_, ?_, ih.pos, ?_⟩
      · show (t.options.modify _ _).length = _
        rw [List.length_modify]; exact ih.length
      · intro o ho
        rcases mem_modify ho with ho | ⟨y, h1, rfl⟩
        · exact ih.keys o ho
        · exact (keys_erase (ih.keys y h1) _).1
      · intro o ho x hx
        rcases mem_modify ho with ho | ⟨y, h1, rfl⟩
        · exact ih.free o ho x hx
        · rw [← lookup_isSome, lookup_erase]
          split
          · simp
          · rw [lookup_isSome]; exact ih.free y h1 x hx

theorem missing_iff {t : Levels} {l : Int} : t.missing l = true ↔ ¬ (0 ≤ l ∧ l < t.perPart.length) := by
  unfold Levels.missing
  rw [decide_eq_true_eq]
  omega

theorem Levels.value_eq {t : Levels} (h : t.Inv) (l : Nat) (hl : l < t.perPart.length) (name : String) :
    t.value l name = .ok ((t.opt l name).getD "") := by
  unfold Levels.value
  rw [if_neg (by rw [missing_iff]; omega)]
  show (match t.options[l]? with | none => Out.throws | some o => Out.ok ((o.lookup name).getD "")) = _
  unfold Levels.opt
  rw [List.getElem?_eq_getElem (by rw [h.length]; exact hl)]
  rfl

theorem Levels.has_iff {t : Levels} (h : t.Inv) (l : Nat) (hl : l < t.perPart.length) (name : String) :
    t.Has l name ↔ (t.opt l name).isSome = true := by
  unfold Levels.Has Levels.names
  rw [if_neg (by rw [missing_iff]; omega)]
  show (∃ ns, (match t.options[l]? with | none => Out.throws | some o => Out.ok (o.map Prod.fst)) = Out.ok ns ∧ _) ↔ _
  unfold Levels.opt
  rw [List.getElem?_eq_getElem (by rw [h.length]; exact hl)]
  show _ ↔ ((t.options[l]'_).lookup name).isSome = true
  rw [lookup_isSome]
  constructor
  · rintro ⟨ns, h1, h2⟩
    injection h1 with h1
    rw [h1]; exact h2
  · intro h; exact ⟨_, rfl, h⟩

/-- Options that the grid keeps for itself, whose values users cannot set. -/
def KeptForGrid (name : String) : Prop :=
  name = "EDGE_WEIGHT_DIM" ∨ name = "NUM_GID_ENTRIES" ∨ name = "NUM_LID_ENTRIES" ∨ name = "OBJ_WEIGHT_DIM" ∨
  name = "RETURN_LISTS" ∨ name = "NUM_GLOBAL_PARTS" ∨ name = "NUM_LOCAL_PARTS" ∨ name = "AUTO_MIGRATE"

theorem reserved_iff (name : String) : name ∈ reservedOptions ↔ KeptForGrid name := by
  simp only [reservedOptions, KeptForGrid, List.mem_cons, List.not_mem_nil, or_false]

/-- C61: queries. Nothing is returned for levels that do not exist; otherwise names of options are returned once each,
and a value for each of them. -/
theorem C61_query {t : Levels} (h : t.Made) (l : Int) :
    (¬ (0 ≤ l ∧ l < t.perPart.length) → t.names l = .ok [] ∧ ∀ name, t.value l name = .ok "") ∧
    (∃ ns, t.names l = .ok ns ∧ ns.Nodup ∧ ∀ name, KeptForGrid name → name ∉ ns) ∧
    (∀ name, ∃ v, t.value l name = .ok v ∧ (¬ t.Has l name → v = "")) := by
  have hi := h.inv
  by_cases hl : 0 ≤ l ∧ l < t.perPart.length
  · refine ⟨fun h => absurd hl h, ?_, ?_⟩
    · unfold Levels.names
      rw [if_neg (by rw [missing_iff]; exact not_not_intro hl),
        List.getElem?_eq_getElem (show l.toNat < t.options.length by rw [hi.length]; omega)]
      exact ⟨_, rfl, hi.keys _ (List.getElem_mem _), fun name hn =>
        hi.free _ (List.getElem_mem _) name ((reserved_iff name).2 hn)⟩
    · intro name
      obtain ⟨k, rfl⟩ := Int.eq_ofNat_of_zero_le hl.1
      refine ⟨_, t.value_eq hi k (by omega) name, ?_⟩
      rw [t.has_iff hi k (by omega)]
      intro h
      cases h1 : t.opt k name with
      | none => rfl
      | some v => rw [h1] at h; exact absurd rfl h
  · have hn : t.names l = .ok [] := by unfold Levels.names; rw [if_pos (by rw [missing_iff]; exact hl)]
    have hv : ∀ name, t.value l name = .ok "" := by
      intro name; unfold Levels.value; rw [if_pos (by rw [missing_iff]; exact hl)]
    exact ⟨fun _ => ⟨hn, hv⟩, ⟨[], hn, List.nodup_nil, fun _ _ => by simp⟩, fun name => ⟨"", hv name, fun _ => rfl⟩⟩

theorem obs {t t' : Levels} (h : t.Inv) (h' : t'.Inv) {l l' : Nat} {name : String} (hl : l < t.perPart.length)
    (hl' : l' < t'.perPart.length) (he : t'.opt l' name = t.opt l name) :
    t'.value l' name = t.value l name ∧ (t'.Has l' name ↔ t.Has l name) := by
  rw [t.value_eq h l hl, t'.value_eq h' l' hl', t.has_iff h l hl, t'.has_iff h' l' hl', he]
  exact ⟨rfl, Iff.rfl⟩

/-- C61: a level is added after others and has two options. Invalid number of processes throws. -/
theorem C61_add {t : Levels} (h : t.Made) (k : Int) :
    (k < 1 → t.add k = .throws) ∧
    (1 ≤ k → ∃ t', t.add k = .ok t' ∧ t'.perPart = t.perPart ++ [k.toNat] ∧
      (∀ l : Nat, l < t.perPart.length → ∀ name, t'.value l name = t.value l name ∧ (t'.Has l name ↔ t.Has l name)) ∧
      t'.value t.perPart.length "LB_METHOD" = .ok "HYPERGRAPH" ∧
      t'.value t.perPart.length "PHG_CUT_OBJECTIVE" = .ok "CONNECTIVITY" ∧
      ∀ name, t'.Has t.perPart.length name ↔ name = "LB_METHOD" ∨ name = "PHG_CUT_OBJECTIVE") := by
  constructor
  · intro hk; unfold Levels.add; rw [if_pos hk]
  · intro hk
    have e : t.add k = .ok { perPart := t.perPart ++ [k.toNat], options := t.options ++
        [(Options.set [] "LB_METHOD" "HYPERGRAPH").set "PHG_CUT_OBJECTIVE" "CONNECTIVITY"] } := by
      unfold Levels.add; rw [if_neg (by omega)]
    refine ⟨_, e, rfl, ?_, ?_⟩
    · intro l hl name
      refine obs h.inv (h.add e).inv hl (by simp; omega) ?_
      unfold Levels.opt
      rw [List.getElem?_append_left (by rw [h.inv.length]; exact hl)]
    · have ho : ∀ name, Levels.opt ⟨t.perPart ++ [k.toNat], t.options ++
          [(Options.set [] "LB_METHOD" "HYPERGRAPH").set "PHG_CUT_OBJECTIVE" "CONNECTIVITY"]⟩ t.perPart.length name =
          ((Options.set [] "LB_METHOD" "HYPERGRAPH").set "PHG_CUT_OBJECTIVE" "CONNECTIVITY").lookup name := by
        intro name
        unfold Levels.opt
        show ((t.options ++ _)[t.perPart.length]?.getD []).lookup name = _
        rw [← h.inv.length, List.getElem?_append_right (Nat.le_refl _), Nat.sub_self]
        rfl
      rw [Levels.value_eq (h.add e).inv _ (by simp), Levels.value_eq (h.add e).inv _ (by simp), ho, ho]
      refine ⟨by decide, by decide, fun name => ?_⟩
      rw [Levels.has_iff (h.add e).inv _ (by simp), ho, lookup_set, lookup_set]
      by_cases h1 : name = "PHG_CUT_OBJECTIVE"
      · simp [h1]
      · by_cases h2 : name = "LB_METHOD"
        · simp [h2]
        · simp [h1, h2]

/-- C61: levels after the removed one are moved by one, nothing happens if it does not exist. -/
theorem C61_remove {t : Levels} (h : t.Made) (l : Nat) :
    (t.perPart.length ≤ l → t.remove l = t) ∧
    (l < t.perPart.length → (t.remove l).perPart.length + 1 = t.perPart.length ∧
      ∀ k, k + 1 < t.perPart.length →
        (t.remove l).perPart[k]? = t.perPart[if k < l then k else k + 1]? ∧
        ∀ name, (t.remove l).value k name = t.value (if k < l then k else k + 1 : Nat) name ∧
          ((t.remove l).Has k name ↔ t.Has (if k < l then k else k + 1 : Nat) name)) := by
  constructor
  · intro hl; unfold Levels.remove; rw [if_pos (by rw [missing_iff]; omega)]
  · intro hl
    have e : t.remove l = ⟨t.perPart.eraseIdx l, t.options.eraseIdx l⟩ := by
      unfold Levels.remove; rw [if_neg (by rw [missing_iff]; omega)]; rfl
    have hlen : (t.remove l).perPart.length + 1 = t.perPart.length := by
      rw [e]
      show (t.perPart.eraseIdx l).length + 1 = _
      rw [List.length_eraseIdx, if_pos hl]; omega
    refine ⟨hlen, fun k hk => ⟨?_, fun name => ?_⟩⟩
    · rw [e]
      show (t.perPart.eraseIdx l)[k]? = _
      rw [List.getElem?_eraseIdx]; split <;> rfl
    · refine obs h.inv (Levels.Made.remove h).inv (by split <;> omega) (by omega) ?_
      unfold Levels.opt
      rw [e]
      show ((t.options.eraseIdx l)[k]?.getD []).lookup name = _
      rw [List.getElem?_eraseIdx]; split <;> rfl

/-- C61: negative levels do not exist. -/
theorem C61_negative (t : Levels) {l : Int} (hl : l < 0) (name value : String) :
    t.remove l = t ∧ t.addOption l name value = .ok t ∧ t.removeOption l name = t := by
  have : t.missing l = true := by rw [missing_iff]; omega
  unfold Levels.remove Levels.addOption Levels.removeOption
  rw [if_pos this, if_pos this, if_pos this]
  exact ⟨rfl, rfl, rfl⟩

/-- C61: after an option is set its value is the one given, and other options and levels are as before. Reserved options
throw, and nothing happens if the level does not exist. -/
theorem C61_add_option {t : Levels} (h : t.Made) (l : Nat) (name value : String) :
    (t.perPart.length ≤ l → t.addOption l name value = .ok t) ∧
    (l < t.perPart.length → KeptForGrid name → t.addOption l name value = .throws) ∧
    (l < t.perPart.length → ¬ KeptForGrid name → ∃ t', t.addOption l name value = .ok t' ∧
      t'.perPart = t.perPart ∧ t'.value l name = .ok value ∧ t'.Has l name ∧
      ∀ k < t.perPart.length, ∀ x, k ≠ l ∨ x ≠ name →
        t'.value k x = t.value k x ∧ (t'.Has k x ↔ t.Has k x)) := by
  rw [← reserved_iff]
  refine ⟨?_, ?_, ?_⟩
  · intro hl; unfold Levels.addOption; rw [if_pos (by rw [missing_iff]; omega)]
  · intro hl hr; unfold Levels.addOption; rw [if_neg (by rw [missing_iff]; omega), if_pos hr]
  · intro hl hr
    have e : t.addOption l name value = .ok { t with options := t.options.modify l (·.set name value) } := by
      unfold Levels.addOption; rw [if_neg (by rw [missing_iff]; omega), if_neg hr]; rfl
    have hi := (h.addOption e).inv
    have ho : ∀ k < t.perPart.length, ∀ x, Levels.opt { t with options := t.options.modify l (·.set name value) } k x =
        if k = l ∧ x = name then some value else t.opt k x := by
      intro k hk x
      unfold Levels.opt
      show ((t.options.modify l (·.set name value))[k]?.getD []).lookup x = _
      rw [List.getElem?_modify, List.getElem?_eq_getElem (show k < t.options.length by rw [h.inv.length]; exact hk)]
      by_cases hkl : k = l
      · subst hkl
        show ((if k = k then Options.set (t.options[k]'_) name value else _)).lookup x = _
        rw [if_pos rfl, lookup_set]
        by_cases hx : x = name
        · rw [if_pos hx, if_pos ⟨rfl, hx⟩]
        · rw [if_neg hx, if_neg (fun h => hx h.2)]; rfl
      · show ((if l = k then _ else (t.options[k]'_) : Options)).lookup x = _
        rw [if_neg (fun h => hkl h.symm), if_neg (fun h => hkl h.1)]
        rfl
    refine ⟨_, e, rfl, ?_, ?_, ?_⟩
    · rw [Levels.value_eq hi _ hl, ho l hl, if_pos ⟨rfl, rfl⟩]; rfl
    · rw [Levels.has_iff hi _ hl, ho l hl, if_pos ⟨rfl, rfl⟩]; rfl
    · intro k hk x hx
      refine obs h.inv hi hk hk ?_
      rw [ho k hk, if_neg]
      rintro ⟨h1, h2⟩
      rcases hx with hx | hx
      · exact hx h1
      · exact hx h2

/-- C61: a removed option has no value and other options and levels are as before. -/
theorem C61_remove_option {t : Levels} (h : t.Made) (l : Nat) (name : String) :
    (t.perPart.length ≤ l → t.removeOption l name = t) ∧
    (l < t.perPart.length → (t.removeOption l name).perPart = t.perPart ∧
      (t.removeOption l name).value l name = .ok "" ∧ ¬ (t.removeOption l name).Has l name ∧
      ∀ k < t.perPart.length, ∀ x, k ≠ l ∨ x ≠ name →
        (t.removeOption l name).value k x = t.value k x ∧ ((t.removeOption l name).Has k x ↔ t.Has k x)) := by
  refine ⟨?_, ?_⟩
  · intro hl; unfold Levels.removeOption; rw [if_pos (by rw [missing_iff]; omega)]
  · intro hl
    have e : t.removeOption l name = { t with options := t.options.modify l (·.erase name) } := by
      unfold Levels.removeOption; rw [if_neg (by rw [missing_iff]; omega)]; rfl
    have hi := (Levels.Made.removeOption (l := l) (name := name) h).inv
    rw [e] at hi ⊢
    have ho : ∀ k < t.perPart.length, ∀ x, Levels.opt { t with options := t.options.modify l (·.erase name) } k x =
        if k = l ∧ x = name then none else t.opt k x := by
      intro k hk x
      unfold Levels.opt
      show ((t.options.modify l (·.erase name))[k]?.getD []).lookup x = _
      rw [List.getElem?_modify, List.getElem?_eq_getElem (show k < t.options.length by rw [h.inv.length]; exact hk)]
      by_cases hkl : k = l
      · subst hkl
        show ((if k = k then Options.erase (t.options[k]'_) name else _)).lookup x = _
        rw [if_pos rfl, lookup_erase]
        by_cases hx : x = name
        · rw [if_pos hx, if_pos ⟨rfl, hx⟩]
        · rw [if_neg hx, if_neg (fun h => hx h.2)]; rfl
      · show ((if l = k then _ else (t.options[k]'_) : Options)).lookup x = _
        rw [if_neg (fun h => hkl h.symm), if_neg (fun h => hkl h.1)]
        rfl
    refine ⟨rfl, ?_, ?_, ?_⟩
    · rw [Levels.value_eq hi _ hl, ho l hl, if_pos ⟨rfl, rfl⟩]; rfl
    · rw [Levels.has_iff hi _ hl, ho l hl, if_pos ⟨rfl, rfl⟩]; exact fun h => by cases h
    · intro k hk x hx
      refine obs h.inv hi hk hk ?_
      rw [ho k hk, if_neg]
      rintro ⟨h1, h2⟩
      rcases hx with hx | hx
      · exact hx h1
      · exact hx h2

/-- Two levels, the first of which has an option. -/
example : ∃ t t1 t2 : Levels, Levels.add ⟨[], []⟩ 4 = .ok t1 ∧ t1.add 1 = .ok t2 ∧
    t2.addOption 0 "LB_METHOD" "RCB" = .ok t ∧ t.Made ∧ t.perPart = [4, 1] ∧ t.value 0 "LB_METHOD" = .ok "RCB" ∧
    t.value 1 "LB_METHOD" = .ok "HYPERGRAPH" :=
  ⟨_, _, _, rfl, rfl, rfl, .addOption (l := 0) (name := "LB_METHOD") (value := "RCB") (.add (k := 1) (.add (k := 4) .start rfl) rfl) rfl,
    rfl, by decide, by decide⟩

end Dccrg
