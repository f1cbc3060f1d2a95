import Verif.Proofs.SlabApi
import Verif.Spec.Containers
import Verif.Spec.Demo
/-
C29 to C33: one side of the book (the slab) as a finite sorted map, over arbitrary sequences of
operations on a slab of arbitrary capacity.
-/
namespace AOB
variable {C : Type}

/-! ### Lemmas -/

theorem SRep.insert_clobber {s : Slab C} {L o R} (hs : SRep s (L ++ o :: R)) (q : Nat) :
    ∃ h s', s.insertLeaf ⟨o.id, q⟩ = .ok ((h, some ⟨o.id, o.qty⟩), s') ∧
      SAt s' h L ⟨o.id, q, o.cb⟩ R ∧ SameSize s s' := by
  obtain ⟨es, ⟨ot, hr, rfl⟩, h⟩ := hs
  obtain ⟨Le, l2, heq, rfl, h2⟩ := List.map_eq_append_iff.1 h
  obtain ⟨e, Re, rfl, rfl, rfl⟩ := List.map_eq_cons_iff.1 h2
  obtain ⟨s', t', h1, h2, h3, h4⟩ := hr.insert_clobber (qty := q) heq rfl
  exact ⟨e.slot, s', h1, ⟨Le, _, Re, ⟨some t', h2, h3⟩, rfl, rfl, rfl, rfl⟩, h4⟩

theorem SRep.findByKey {s : Slab C} {os} (hs : SRep s os) {k : Nat} (hk : k < 2 ^ 128) :
    (∃ h L o R, os = L ++ o :: R ∧ o.id = k ∧ s.findByKey k = .ok (some h) ∧ SAt s h L o R) ∨
      ((∀ o ∈ os, o.id ≠ k) ∧ s.findByKey k = .ok none) := by
  obtain ⟨es, ⟨ot, hr, rfl⟩, rfl⟩ := hs
  rcases hr.findByKey hk with ⟨e, he, hek, hf⟩ | ⟨hno, hf⟩
  · left
    obtain ⟨L, R, heq⟩ := List.append_of_mem he
    refine ⟨e.slot, L.map Entry.order, e.order, R.map Entry.order, by rw [heq]; simp, hek, hf,
      L, e, R, ⟨ot, hr, heq⟩, rfl, rfl, rfl, rfl⟩
  · right
    refine ⟨?_, hf⟩
    intro o ho
    obtain ⟨e, he, rfl⟩ := List.mem_map.1 ho
    exact hno e he

/-- Ids are pairwise different. -/
def OneEach (l : List (Order C)) : Prop := (l.map Order.id).Nodup

theorem OneEach.of_sorted {l : List (Order C)} (h : l.Pairwise (fun a b => a.id < b.id)) : OneEach l := by
  unfold OneEach
  rw [List.nodup_iff_pairwise_ne, List.pairwise_map]
  exact h.imp (fun h => by omega)

theorem find_split {L R : List (Order C)} {o : Order C} (h : OneEach (L ++ o :: R)) :
    (L ++ o :: R).find? (fun x => x.id = o.id) = some o ∧
      (L ++ o :: R).filter (fun x => x.id ≠ o.id) = L ++ R := by
  unfold OneEach at h
  rw [List.map_append, List.map_cons, List.nodup_middle, List.nodup_cons, ← List.map_append] at h
  have hne : ∀ x ∈ L ++ R, x.id ≠ o.id := fun x hx he => h.1 (by rw [← he]; exact List.mem_map_of_mem hx)
  constructor
  · rw [List.find?_append, List.find?_eq_none.2]
    · simp
    · intro x hx; simpa using hne x (List.mem_append_left _ hx)
  · rw [List.filter_append, List.filter_cons_of_neg (by simp), List.filter_eq_self.2, List.filter_eq_self.2]
    · intro x hx; simpa using hne x (List.mem_append_right _ hx)
    · intro x hx; simpa using hne x (List.mem_append_left _ hx)

theorem find_perm {l l' : List (Order C)} (hp : l.Perm l') (h : OneEach l) (k : Nat) :
    l'.find? (fun x => x.id = k) = l.find? (fun x => x.id = k) := by
  cases hf : l.find? (fun x => x.id = k) with
  | none =>
    rw [List.find?_eq_none] at hf ⊢
    intro x hx; exact hf x (hp.mem_iff.2 hx)
  | some o =>
    have ho := List.mem_of_find?_eq_some hf
    have hk : o.id = k := by simpa using List.find?_some hf
    subst hk
    obtain ⟨L, R, rfl⟩ := List.append_of_mem (hp.mem_iff.1 ho)
    have h' : OneEach (L ++ o :: R) := (hp.map Order.id).nodup_iff.1 h
    exact (find_split h').1

theorem find_cases {l : List (Order C)} (k : Nat) :
    (∃ L o R, l = L ++ o :: R ∧ o.id = k) ∨ (∀ o ∈ l, o.id ≠ k) := by
  by_cases h : ∃ o ∈ l, o.id = k
  · obtain ⟨o, ho, rfl⟩ := h
    obtain ⟨L, R, rfl⟩ := List.append_of_mem ho
    exact .inl ⟨L, o, R, rfl, rfl⟩
  · right; intro o ho he; exact h ⟨o, ho, he⟩

/-- One operation keeps the slab and the specification in step. -/
theorem apply_step {s : Slab C} {os l : List (Order C)} (hs : SRep s os) (hp : os.Perm l)
    (op : SOp C) (hop : op.Ok) :
    ∃ os', SRep (s.apply op).2 os' ∧ os'.Perm (bagApply s.leafNodes.length l op).2 ∧
      SameSize s (s.apply op).2 ∧ Agrees (s.apply op).1 (bagApply s.leafNodes.length l op).1 ∧
      ((s.apply op).1 = .panicked → os.length = 1 ∧ ∃ k, op = .remove k ∧
        s.leafNodes[0]?.map LeafNode.key = some k) := by
  have h1 : OneEach os := .of_sorted hs.sorted
  cases op with
  | insert k q c =>
    simp only [bagApply, find_perm hp h1 k]
    rcases find_cases (l := os) k with ⟨L, o, R, rfl, rfl⟩ | hno
    · obtain ⟨h, s', hi, ha, hss⟩ := hs.insert_clobber q
      obtain ⟨s'', hc, ha', hss'⟩ := ha.setCb c
      have happ : s.apply (.insert o.id q c) = (.replaced o.qty, s'') := by
        simp only [Slab.apply, Slab.put, hi, ok_bind, hc]
      obtain ⟨hf, hfl⟩ := find_split h1
      rw [happ, hf]
      refine ⟨_, ha'.rep, ?_, hss.trans hss', .inl rfl, by simp⟩
      refine List.perm_middle.trans (List.Perm.cons _ ?_)
      rw [← hfl]; exact hp.filter _
    · have hf : os.find? (fun x => x.id = k) = none := List.find?_eq_none.2 (by simpa using hno)
      rw [hf]
      by_cases hroom : l.length < s.leafNodes.length
      · obtain ⟨h, s', c0, L, R, hi, ha, rfl, _, _, hss⟩ := hs.insert_new (qty := q) hop hno
          (by rw [hp.length_eq]; exact hroom)
        obtain ⟨s'', hc, ha', hss'⟩ := ha.setCb c
        have happ : s.apply (.insert k q c) = (.inserted, s'') := by
          simp only [Slab.apply, Slab.put, hi, ok_bind, hc]
        rw [happ]
        simp only [if_pos hroom]
        refine ⟨_, ha'.rep, ?_, hss.trans hss', .inl rfl, by simp⟩
        exact List.perm_middle.trans (List.Perm.cons _ hp)
      · have hle := hs.length_le
        have hi := hs.insert_full (qty := q) hop hno (by rw [hp.length_eq] at hle ⊢; omega)
        have happ : s.apply (.insert k q c) = (.full, s) := by
          simp only [Slab.apply, Slab.put, hi]; rfl
        rw [happ]
        simp only [if_neg hroom]
        exact ⟨os, hs, hp, .refl s, .inl rfl, by simp⟩
  | update k q =>
    simp only [bagApply, find_perm hp h1 k]
    rcases hs.findByKey hop with ⟨h, L, o, R, rfl, rfl, hf, ha⟩ | ⟨hno, hf⟩
    · obtain ⟨s', hq, ha', hss⟩ := ha.setQty q
      have happ : s.apply (.update o.id q) = (.updated true, s') := by
        simp only [Slab.apply, Slab.requantify, hf, ok_bind, hq]
      obtain ⟨hf, hfl⟩ := find_split h1
      rw [happ, hf]
      refine ⟨_, ha'.rep, ?_, hss, .inl rfl, by simp⟩
      refine List.perm_middle.trans (List.Perm.cons _ ?_)
      rw [← hfl]; exact hp.filter _
    · have happ : s.apply (.update k q) = (.updated false, s) := by
        simp only [Slab.apply, Slab.requantify, hf, ok_bind]
      have hf : os.find? (fun x => x.id = k) = none := List.find?_eq_none.2 (by simpa using hno)
      rw [happ, hf]
      exact ⟨os, hs, hp, .refl s, .inl rfl, by simp⟩
  | remove k =>
    simp only [bagApply, find_perm hp h1 k]
    rcases find_cases (l := os) k with ⟨L, o, R, rfl, rfl⟩ | hno
    · obtain ⟨s', hr, hs', hss⟩ := hs.remove
      have happ : s.apply (.remove o.id) = (.removed (some o), s') := by
        simp only [Slab.apply, hr]; rfl
      obtain ⟨hf, hfl⟩ := find_split h1
      rw [happ, hf]
      refine ⟨_, hs', ?_, hss, .inl rfl, by simp⟩
      rw [← hfl]; exact hp.filter _
    · have hf : os.find? (fun x => x.id = k) = none := List.find?_eq_none.2 (by simpa using hno)
      rw [hf]
      rcases hs.remove_missing hno with hr | ⟨hl, h0, hr⟩
      · have happ : s.apply (.remove k) = (.removed none, s) := by
          simp only [Slab.apply, hr]
        rw [happ]
        exact ⟨os, hs, hp, .refl s, .inl rfl, by simp⟩
      · have happ : s.apply (.remove k) = (.panicked, s) := by
          simp only [Slab.apply, hr]
        rw [happ]
        exact ⟨os, hs, hp, .refl s, .inr ⟨rfl, rfl⟩, fun _ => ⟨hl, k, rfl, h0⟩⟩

theorem applyAll_steps (ops : List (SOp C)) : ∀ {s : Slab C} {os l : List (Order C)}, SRep s os →
    os.Perm l → (∀ op ∈ ops, op.Ok) →
    ∃ os', SRep (s.applyAll ops).2 os' ∧ os'.Perm (bagApplyAll s.leafNodes.length l ops).2 ∧
      SameSize s (s.applyAll ops).2 ∧
      List.Forall₂ Agrees (s.applyAll ops).1 (bagApplyAll s.leafNodes.length l ops).1 := by
  induction ops with
  | nil => intro s os l hs hp _; exact ⟨os, hs, hp, .refl s, .nil⟩
  | cons op ops ih =>
    intro s os l hs hp hok
    obtain ⟨os1, h1, h2, h3, h4, _⟩ := apply_step hs hp op (hok op (by simp))
    obtain ⟨os2, g1, g2, g3, g4⟩ := ih h1 h2 (fun o ho => hok o (by simp [ho]))
    rw [h3.1] at g2 g4
    exact ⟨os2, g1, g2, h3.trans g3, .cons h4 g4⟩

theorem SReach.rep {cap : Nat} {c0 : C} {ops} {s : Slab C} (h : SReach cap c0 ops s) :
    ∃ os, SRep s os ∧ os.Perm (bagOf cap ops) ∧ s.leafNodes.length = cap + 1 ∧
      List.Forall₂ Agrees ((Slab.zeroed cap c0).applyAll ops).1 (answersOf cap ops) := by
  obtain ⟨hc, hok, rfl⟩ := h
  obtain ⟨os, h1, h2, h3, h4⟩ := applyAll_steps ops (srep_zeroed cap c0 hc) (List.Perm.refl []) hok
  have hl : (Slab.zeroed cap c0).leafNodes.length = cap + 1 := by simp [Slab.zeroed]
  rw [hl] at h2 h4
  exact ⟨os, h1, h2, by rw [h3.1, hl], h4⟩

/-! ### C29 -/

/-- C29. After any sequence of operations the slab holds exactly the orders that the same operations
leave in a plain bag with one order per id: same ids, same quantities, same callback infos; read back
by the code's own traversal they come out sorted by id. -/
theorem C29_contents {cap : Nat} {c0 : C} {ops : List (SOp C)} {s : Slab C} (h : SReach cap c0 ops s) :
    ∃ os, s.orders = .ok os ∧ os.Perm (bagOf cap ops) ∧ os.Pairwise (fun a b => a.id < b.id) ∧
      s.header.leafCount = (bagOf cap ops).length := by
  obtain ⟨os, h1, h2, _, _⟩ := h.rep
  exact ⟨os, h1.orders, h2, h1.sorted, by rw [h1.leafCount, h2.length_eq]⟩

/-- C29. Every answer given along the way is the one the bag gives, except that a removal of a
missing key may panic. -/
theorem C29_answers {cap : Nat} {c0 : C} {ops : List (SOp C)} {s : Slab C} (h : SReach cap c0 ops s) :
    List.Forall₂ Agrees ((Slab.zeroed cap c0).applyAll ops).1 (answersOf cap ops) := by
  obtain ⟨_, _, _, _, h4⟩ := h.rep
  exact h4

/-- C29. The panic of the last theorem needs exactly one order in the slab and the removed key left
behind in slot 0; every other answer is exactly the bag's. -/
theorem C29_answer {cap : Nat} {c0 : C} {ops : List (SOp C)} {s : Slab C} (h : SReach cap c0 ops s)
    (op : SOp C) (hop : op.Ok) :
    (s.apply op).1 = (bagApply (cap + 1) (bagOf cap ops) op).1 ∨
      ((s.apply op).1 = .panicked ∧ (bagOf cap ops).length = 1 ∧
        ∃ k, op = .remove k ∧ (∀ o ∈ bagOf cap ops, o.id ≠ k) ∧
          s.leafNodes[0]?.map LeafNode.key = some k) := by
  obtain ⟨os, h1, h2, h3, _⟩ := h.rep
  obtain ⟨os', _, _, _, ha, hb⟩ := apply_step h1 h2 op hop
  rw [h3] at ha
  rcases ha with ha | ⟨ha, hsp⟩
  · exact .inl ha
  · right
    obtain ⟨hl, k, rfl, h0⟩ := hb ha
    refine ⟨ha, by rw [← h2.length_eq, hl], k, rfl, ?_, h0⟩
    intro o ho hk
    simp only [bagApply] at hsp
    split at hsp
    · simp at hsp
    · rename_i hf
      rw [List.find?_eq_none] at hf
      simpa [hk] using hf o ho

/-- C29. Lookup: `find_by_key` finds the slot holding the key, its quantity and its callback info,
and finds nothing exactly when the key is absent. -/
theorem C29_lookup {cap : Nat} {c0 : C} {ops : List (SOp C)} {s : Slab C} (h : SReach cap c0 ops s)
    {k : Nat} (hk : k < 2 ^ 128) :
    (∃ o ∈ bagOf cap ops, o.id = k ∧ ∃ i, s.findByKey k = .ok (some i) ∧
        s.leafNodes[i]? = some ⟨k, o.qty⟩ ∧ s.callbackInfos[i]? = some o.cb) ∨
      ((∀ o ∈ bagOf cap ops, o.id ≠ k) ∧ s.findByKey k = .ok none) := by
  obtain ⟨os, h1, h2, _, _⟩ := h.rep
  rcases h1.findByKey hk with ⟨i, L, o, R, rfl, rfl, hf, ha⟩ | ⟨hno, hf⟩
  · exact .inl ⟨o, h2.mem_iff.1 (by simp), rfl, i, hf, ha.leaf, ha.cb⟩
  · exact .inr ⟨fun o ho => hno o (h2.mem_iff.2 ho), hf⟩

/-! ### C30 -/

/-- C30. `find_min` answers `None` exactly on an empty side, otherwise the slot of the order with the
smallest id. -/
theorem C30_find_min {cap : Nat} {c0 : C} {ops : List (SOp C)} {s : Slab C} (h : SReach cap c0 ops s) :
    (bagOf cap ops = [] ∧ s.findMin = .ok none) ∨
      ∃ o ∈ bagOf cap ops, (∀ x ∈ bagOf cap ops, o.id ≤ x.id) ∧ ∃ i, s.findMin = .ok (some i) ∧
        s.leafNodes[i]? = some ⟨o.id, o.qty⟩ ∧ s.callbackInfos[i]? = some o.cb := by
  obtain ⟨os, h1, h2, _, _⟩ := h.rep
  cases os with
  | nil => exact .inl ⟨h2.symm.eq_nil, h1.findMin_nil⟩
  | cons o R =>
    right
    obtain ⟨i, hf, ha⟩ := h1.findMin_cons
    refine ⟨o, h2.mem_iff.1 (by simp), ?_, i, hf, ha.leaf, ha.cb⟩
    intro x hx
    have hp := h1.sorted
    rw [List.pairwise_cons] at hp
    rcases List.mem_cons.1 (h2.mem_iff.2 hx) with rfl | hx'
    · exact le_refl _
    · exact le_of_lt (hp.1 x hx')

/-- C30. `find_max` answers `None` exactly on an empty side, otherwise the slot of the order with the
largest id. -/
theorem C30_find_max {cap : Nat} {c0 : C} {ops : List (SOp C)} {s : Slab C} (h : SReach cap c0 ops s) :
    (bagOf cap ops = [] ∧ s.findMax = .ok none) ∨
      ∃ o ∈ bagOf cap ops, (∀ x ∈ bagOf cap ops, x.id ≤ o.id) ∧ ∃ i, s.findMax = .ok (some i) ∧
        s.leafNodes[i]? = some ⟨o.id, o.qty⟩ ∧ s.callbackInfos[i]? = some o.cb := by
  obtain ⟨os, h1, h2, _, _⟩ := h.rep
  rcases List.eq_nil_or_concat os with rfl | ⟨L, o, rfl⟩
  · exact .inl ⟨h2.symm.eq_nil, h1.findMax_nil⟩
  · right
    rw [List.concat_eq_append] at h1 h2
    obtain ⟨i, hf, ha⟩ := h1.findMax_concat
    refine ⟨o, h2.mem_iff.1 (by simp), ?_, i, hf, ha.leaf, ha.cb⟩
    intro x hx
    have hp := h1.sorted
    rw [List.pairwise_append] at hp
    rcases List.mem_append.1 (h2.mem_iff.2 hx) with hx' | hx'
    · exact le_of_lt (hp.2.2 x hx' o (by simp))
    · rw [List.mem_singleton] at hx'
      rw [hx']

/-! ### C31 -/

/-- C31. The iterator visits every order exactly once: in increasing id order when ascending, in
decreasing id order otherwise. -/
theorem C31_iteration {cap : Nat} {c0 : C} {ops : List (SOp C)} {s : Slab C} (h : SReach cap c0 ops s)
    (ascending : Bool) :
    ∃ ls, s.iterAll ascending = .ok ls ∧
      (ls.map (fun n => (n.orderId, n.baseQuantity))).Perm
        ((bagOf cap ops).map (fun o => (o.id, o.qty))) ∧
      ls.Pairwise (fun a b => if ascending then a.orderId < b.orderId else b.orderId < a.orderId) := by
  obtain ⟨os, ⟨es, ⟨ot, hr, rfl⟩, rfl⟩, h2, _, _⟩ := h.rep
  refine ⟨_, hr.iterAll ascending, ?_, ?_⟩
  · have : ((oents ot).map Entry.node).map (fun n => (n.orderId, n.baseQuantity)) =
        ((oents ot).map Entry.order).map (fun o => (o.id, o.qty)) := by
      simp [Function.comp_def, Entry.node, Entry.order, LeafNode.orderId]
    cases ascending
    · simp only [Bool.false_eq_true, if_false]
      refine (List.Perm.map _ (List.Perm.map _ (List.reverse_perm _))).trans ?_
      rw [this]; exact h2.map _
    · simp only [if_true]
      rw [this]; exact h2.map _
  · cases ascending
    · simp only [Bool.false_eq_true, if_false]
      rw [List.pairwise_map, List.pairwise_reverse]
      exact hr.sorted
    · simp only [if_true]
      rw [List.pairwise_map]
      exact hr.sorted

/-! ### C32 -/

/-- C32. Whatever happened before, inserting a new key succeeds exactly when the side holds fewer
orders than it has leaf slots, and otherwise answers "full": no slot and no inner node is ever lost. -/
theorem C32_capacity {cap : Nat} {c0 : C} {ops : List (SOp C)} {s : Slab C} (h : SReach cap c0 ops s)
    {k q : Nat} {cb : C} (hk : k < 2 ^ 128) (hnew : ∀ o ∈ bagOf cap ops, o.id ≠ k) :
    ((bagOf cap ops).length < cap + 1 → ∃ s', s.put k q cb = .ok (none, s')) ∧
      ((bagOf cap ops).length ≥ cap + 1 → s.put k q cb = .error (.ao .slabOutOfSpace)) := by
  obtain ⟨os, h1, h2, h3, _⟩ := h.rep
  have hno : ∀ o ∈ os, o.id ≠ k := fun o ho => hnew o (h2.mem_iff.1 ho)
  constructor
  · intro hlt
    obtain ⟨i, s', c, L, R, hi, ha, _⟩ := h1.insert_new (qty := q) hk hno
      (by rw [h2.length_eq, h3]; exact hlt)
    obtain ⟨s'', hc, _⟩ := ha.setCb cb
    exact ⟨s'', by simp only [Slab.put, hi, ok_bind, hc]⟩
  · intro hge
    have hle := h1.length_le
    have hi := h1.insert_full (qty := q) hk hno (by rw [h2.length_eq, h3] at *; omega)
    simp only [Slab.put, hi]; rfl

/-- C32. The side never holds more orders than it has slots. -/
theorem C32_bounded {cap : Nat} {c0 : C} {ops : List (SOp C)} {s : Slab C} (h : SReach cap c0 ops s) :
    (bagOf cap ops).length ≤ cap + 1 := by
  obtain ⟨os, h1, h2, h3, _⟩ := h.rep
  rw [← h2.length_eq, ← h3]; exact h1.length_le

/-! ### C33 -/

/-- C33. The reported depth is at most 129 (at most 128 inner nodes and a leaf on any path), and never
more than the number of orders. -/
theorem C33_depth {cap : Nat} {c0 : C} {ops : List (SOp C)} {s : Slab C} (h : SReach cap c0 ops s) :
    ∃ d, s.getDepth = .ok d ∧ d ≤ 129 ∧ d ≤ (bagOf cap ops).length := by
  obtain ⟨os, ⟨es, ⟨ot, hr, rfl⟩, rfl⟩, h2, _, _⟩ := h.rep
  refine ⟨_, hr.getDepth, ?_⟩
  rw [← h2.length_eq, List.length_map]
  cases ot with
  | none => simp
  | some t =>
    have h1 := hr.wf.depth_le_128
    have h2 := t.depth_le_inners
    have h3 := t.ents_length
    simp only [oents]
    omega

theorem parts_iff (b k j : Nat) : (k / 2 ^ (b + 1) = j / 2 ^ (b + 1) ∧ k / 2 ^ b ≠ j / 2 ^ b) ↔
    (∀ i, b < i → k.testBit i = j.testBit i) ∧ k.testBit b ≠ j.testBit b := by
  have div_eq : ∀ c, k / 2 ^ c = j / 2 ^ c ↔ ∀ i, c ≤ i → k.testBit i = j.testBit i := by
    intro c
    constructor
    · intro h i hi
      have := congrArg (fun x => x.testBit (i - c)) h
      simpa [Nat.testBit_div_two_pow, Nat.sub_add_cancel hi] using this
    · intro h
      apply Nat.eq_of_testBit_eq
      intro i
      rw [Nat.testBit_div_two_pow, Nat.testBit_div_two_pow]
      exact h _ (by omega)
  rw [Ne, div_eq, div_eq]
  constructor
  · rintro ⟨h1, h2⟩
    refine ⟨fun i hi => h1 i hi, fun he => h2 fun i hi => ?_⟩
    rcases Nat.eq_or_lt_of_le hi with rfl | hlt
    · exact he
    · exact h1 i hlt
  · rintro ⟨h1, h2⟩
    exact ⟨fun i hi => h1 i hi, fun h => h2 (h b le_rfl)⟩

/-- The number of places at which a predicate that is met at one more place than another is met. -/
theorem filter_one_more {P Q : Nat → Bool} {n b : Nat} (hb : b < n) (hQ : Q b = false)
    (h : ∀ i < n, P i = true ↔ (Q i = true ∨ i = b)) :
    ((List.range n).filter P).length = ((List.range n).filter Q).length + 1 := by
  have hp : ((List.range n).filter P).Perm (b :: (List.range n).filter Q) := by
    rw [List.perm_ext_iff_of_nodup (List.nodup_range.filter _)
      (List.nodup_cons.2 ⟨by simp [hQ], List.nodup_range.filter _⟩)]
    intro i
    simp only [List.mem_filter, List.mem_range, List.mem_cons]
    constructor
    · rintro ⟨h1, h2⟩
      rcases (h i h1).1 h2 with h3 | h3
      · exact .inr ⟨h1, h3⟩
      · exact .inl h3
    · rintro (rfl | ⟨h1, h2⟩)
      · exact ⟨hb, (h i hb).2 (.inr rfl)⟩
      · exact ⟨h1, (h i h1).2 (.inl h2)⟩
  simpa using hp.length_eq

theorem partings_branch {p : Nat} {L R : List Nat} {k : Nat} (hp : p < 128) (hR : R ≠ []) (d : Bool)
    (hkd : k.testBit (127 - p) = d) (hL : ∀ j ∈ L, Agree p j k ∧ j.testBit (127 - p) = d)
    (hR' : ∀ j ∈ R, Agree p j k ∧ j.testBit (127 - p) = !d) (ks : List Nat) (hks : ∀ j, j ∈ ks ↔ j ∈ L ∨ j ∈ R) :
    (partings ks k).length = (partings L k).length + 1 := by
  refine filter_one_more (b := 127 - p) (by omega) ?_ ?_
  · rw [← Bool.not_eq_true, List.any_eq_true]
    rintro ⟨j, hj, hd⟩
    obtain ⟨-, h2⟩ := (parts_iff _ _ _).1 (of_decide_eq_true hd)
    exact h2 (hkd.trans (hL j hj).2.symm)
  · intro i hi
    simp only [List.any_eq_true, decide_eq_true_eq, parts_iff]
    constructor
    · rintro ⟨j, hj, h1, h2⟩
      rcases (hks j).1 hj with hj | hj
      · exact .inl ⟨j, hj, h1, h2⟩
      · right
        by_contra hne
        rcases Nat.lt_or_gt_of_ne hne with hlt | hgt
        · have := h1 _ hlt
          rw [hkd, (hR' j hj).2] at this
          cases d <;> cases this
        · exact h2 ((hR' j hj).1 i (by omega)).symm
    · rintro (⟨j, hj, h⟩ | rfl)
      · exact ⟨j, (hks j).2 (.inl hj), h⟩
      · obtain ⟨j, hj⟩ := List.exists_mem_of_ne_nil _ hR
        refine ⟨j, (hks j).2 (.inr hj), fun i hi => ((hR' j hj).1 i (by omega)).symm, ?_⟩
        rw [hkd, (hR' j hj).2]
        cases d <;> decide

theorem Tree.Wf.partings_left {i k p : Nat} {l r : Tree C} (hw : (Tree.node i k p l r).Wf) {e : Entry C} (he : e ∈ l.ents) :
    (partings ((Tree.node i k p l r).ents.map Entry.key) e.key).length =
      (partings (l.ents.map Entry.key) e.key).length + 1 := by
  obtain ⟨hp, _, hl, hr, hwl, hwr⟩ := hw
  refine partings_branch hp (R := r.ents.map Entry.key) (by simpa using r.ents_ne_nil) false (hl e he).2 ?_ ?_ _
    (by simp [Tree.ents])
  · intro j hj
    obtain ⟨e', he', rfl⟩ := List.mem_map.1 hj
    exact ⟨(hl e' he').1.trans (hl e he).1.symm, (hl e' he').2⟩
  · intro j hj
    obtain ⟨e', he', rfl⟩ := List.mem_map.1 hj
    exact ⟨(hr e' he').1.trans (hl e he).1.symm, (hr e' he').2⟩

theorem Tree.Wf.partings_right {i k p : Nat} {l r : Tree C} (hw : (Tree.node i k p l r).Wf) {e : Entry C} (he : e ∈ r.ents) :
    (partings ((Tree.node i k p l r).ents.map Entry.key) e.key).length =
      (partings (r.ents.map Entry.key) e.key).length + 1 := by
  obtain ⟨hp, _, hl, hr, hwl, hwr⟩ := hw
  refine partings_branch hp (R := l.ents.map Entry.key) (by simpa using l.ents_ne_nil) true (hr e he).2 ?_ ?_ _
    (by simp [Tree.ents, or_comm])
  · intro j hj
    obtain ⟨e', he', rfl⟩ := List.mem_map.1 hj
    exact ⟨(hr e' he').1.trans (hr e he).1.symm, (hr e' he').2⟩
  · intro j hj
    obtain ⟨e', he', rfl⟩ := List.mem_map.1 hj
    exact ⟨(hl e' he').1.trans (hr e he).1.symm, (hl e' he').2⟩

/-- The path to a leaf has an inner node for every bit at which its key parts from another key of the tree. -/
theorem Tree.Wf.depth_eq {t : Tree C} (hw : t.Wf) :
    (∀ e ∈ t.ents, (partings (t.ents.map Entry.key) e.key).length ≤ t.depth) ∧
      ∃ e ∈ t.ents, (partings (t.ents.map Entry.key) e.key).length = t.depth := by
  induction t with
  | leaf e =>
    have : partings [e.key] e.key = [] := by simp [partings]
    simp [Tree.ents, Tree.depth, this]
  | node i k p l r ihl ihr =>
    obtain ⟨l1, el, hel, l2⟩ := ihl hw.2.2.2.2.1
    obtain ⟨r1, er, her, r2⟩ := ihr hw.2.2.2.2.2
    constructor
    · intro e he
      rcases List.mem_append.1 he with he | he
      · have := l1 e he; rw [hw.partings_left he]; simp only [Tree.depth]; omega
      · have := r1 e he; rw [hw.partings_right he]; simp only [Tree.depth]; omega
    · rcases Nat.le_total l.depth r.depth with h | h
      · exact ⟨er, List.mem_append_right _ her, by rw [hw.partings_right her, r2, Tree.depth]; omega⟩
      · exact ⟨el, List.mem_append_left _ hel, by rw [hw.partings_left hel, l2, Tree.depth]; omega⟩

theorem partings_perm {ks js : List Nat} (h : ks.Perm js) (k : Nat) : partings ks k = partings js k := by
  unfold partings
  congr 1
  funext b
  rw [Bool.eq_iff_iff]
  simp only [List.any_eq_true, h.mem_iff]

/-- C33. The reported depth is exact, and depends on the keys only: it is the largest number of nodes from the root to
an order, where the path to an order has one inner node for every bit at which its key parts from another key. -/
theorem C33_depth_exact {cap : Nat} {c0 : C} {ops : List (SOp C)} {s : Slab C} (h : SReach cap c0 ops s) :
    ∃ d, s.getDepth = .ok d ∧ (bagOf cap ops = [] → d = 0) ∧
      (∀ o ∈ bagOf cap ops, (partings ((bagOf cap ops).map Order.id) o.id).length + 1 ≤ d) ∧
      (bagOf cap ops ≠ [] → ∃ o ∈ bagOf cap ops, (partings ((bagOf cap ops).map Order.id) o.id).length + 1 = d) := by
  obtain ⟨os, ⟨es, ⟨ot, hr, rfl⟩, rfl⟩, h2, _, _⟩ := h.rep
  refine ⟨_, hr.getDepth, ?_⟩
  cases ot with
  | none =>
    have : bagOf cap ops = [] := h2.symm.eq_nil
    simp [this]
  | some t =>
    obtain ⟨h3, e, he, h4⟩ := hr.wf.depth_eq
    have hp : (t.ents.map Entry.key).Perm ((bagOf cap ops).map Order.id) := by
      have := h2.map Order.id
      rwa [List.map_map] at this
    have hmem : ∀ o, o ∈ bagOf cap ops ↔ ∃ e ∈ t.ents, e.order = o := by
      intro o; rw [← h2.mem_iff, List.mem_map]; rfl
    refine ⟨fun h => ?_, ?_, fun _ => ⟨e.order, (hmem _).2 ⟨e, he, rfl⟩, ?_⟩⟩
    · exact absurd ((hmem e.order).2 ⟨e, he, rfl⟩) (by simp [h])
    · rintro o ho
      obtain ⟨e', he', rfl⟩ := (hmem o).1 ho
      rw [← partings_perm hp]
      exact Nat.succ_le_succ (h3 e' he')
    · rw [← partings_perm hp]
      exact congrArg (· + 1) h4

/-- C33. Every descent of the code ends within 129 nodes, whatever the key and the tree: the loops of
`find_min_max`, `insert_leaf`, `find_by_key` and `remove_by_key` never run out of `129` rounds
(`129` bounds the visited nodes, the leaf included). -/
theorem C33_walks {cap : Nat} {c0 : C} {ops : List (SOp C)} {s : Slab C} (h : SReach cap c0 ops s)
    (hne : bagOf cap ops ≠ []) :
    (∀ b, ∃ i, s.findMinMaxWalk b 129 s.header.rootNode = .ok i) ∧
      (∀ k < 2 ^ 128, ∃ st, s.insertWalk k 129 s.header.rootNode none = .ok st) ∧
      (∀ k < 2 ^ 128, ∃ r, s.findByKeyWalk k 129 s.header.rootNode = .ok r) ∧
      (∀ k, isInnerHandle s.header.rootNode = true → ∃ n w r,
        s.innerNodes[notU32 s.header.rootNode]? = some n ∧ n.walkDown k = .ok w ∧
        s.removeWalk k 128 ⟨none, s.header.rootNode, w.1, w.2⟩ = .ok r) := by
  obtain ⟨os, ⟨es, ⟨ot, hr, rfl⟩, rfl⟩, h2, _, _⟩ := h.rep
  cases ot with
  | none => exact absurd h2.symm.eq_nil hne
  | some t =>
    have hd := hr.wf.depth_le_128
    rw [hr.root_eq]
    refine ⟨?_, ?_, ?_, ?_⟩
    · intro b
      cases b
      · obtain ⟨e, _, hw⟩ := findMinWalk_spec s t 129 hr.mem (by omega)
        exact ⟨_, hw⟩
      · obtain ⟨e, _, hw⟩ := findMaxWalk_spec s t 129 hr.mem (by omega)
        exact ⟨_, hw⟩
    · intro k hk
      rcases insertWalk_spec s k hk t [] 129 hr.mem hr.wf (by simp [Ctx.Fits]) (by omega) with
        ⟨c', e, _, _, _, hw⟩ | ⟨c', u, sh, _, _, _, _, hw⟩
      · exact ⟨_, hw⟩
      · exact ⟨_, hw⟩
    · intro k hk
      rcases findByKeyWalk_spec s k hk t 129 hr.mem hr.wf (by omega) with ⟨e, _, _, hw⟩ | ⟨_, hw⟩
      · exact ⟨_, hw⟩
      · exact ⟨_, hw⟩
    · intro k hin
      cases t with
      | leaf e =>
        have := hr.mem.handle_leaf
        rw [this] at hin; cases hin
      | node i nk p l r =>
        have hi := hr.mem.1
        obtain ⟨a, b, h1, h2, h3⟩ := removeStart_spec s k hr.mem hr.wf (fuel := 128) hd
        rw [show (Tree.node i nk p l r).handle = notU32 i from rfl, notU32_notU32 (by omega)]
        rcases h3 with ⟨f', c', e, _, _, hw⟩ | ⟨_, hw⟩
        · exact ⟨_, _, _, h1, h2, hw⟩
        · exact ⟨_, _, _, h1, h2, hw⟩

/-! ### A concrete case -/

/-- A history with insertions, an overwrite, an update, removals in mixed order, a refusal and
reuse of freed slots, on a slab of three leaf slots. -/
def demoSOps : List (SOp Nat) :=
  [.insert 12 5 1, .insert 10 7 2, .insert (2 ^ 127) 1 3, .insert 11 1 4, .remove 10, .update 12 9,
   .remove 99, .insert 11 8 5, .insert 12 6 6, .remove 12, .insert 13 2 7]

theorem demoSlab : SReach 2 0 demoSOps ((Slab.zeroed 2 0).applyAll demoSOps).2 :=
  ⟨by omega, by simp [demoSOps, SOp.Ok], rfl⟩

theorem demoSlab_bag : (bagOf 2 demoSOps).map Order.id = [13, 11, 2 ^ 127] := by decide +kernel

example : answersOf 2 demoSOps =
    [.inserted, .inserted, .inserted, .full, .removed (some ⟨10, 7, 2⟩), .updated true, .removed none,
     .inserted, .replaced 9, .removed (some ⟨12, 6, 6⟩), .inserted] := by decide +kernel
example : ((Slab.zeroed 2 0).applyAll demoSOps).1 = answersOf 2 demoSOps := by decide +kernel
example := C29_contents demoSlab
example := C29_answers demoSlab
example := C29_answer demoSlab (.remove 11) trivial
example := C29_lookup demoSlab (k := 11) (by omega)
example := C30_find_min demoSlab
example := C30_find_max demoSlab
example := C31_iteration demoSlab false
example : ((Slab.zeroed 2 0).applyAll demoSOps).2.put 14 1 1 = .error (.ao .slabOutOfSpace) :=
  (C32_capacity demoSlab (by omega) (by decide +kernel)).2 (by decide +kernel)
example := C32_bounded demoSlab
example : ((Slab.zeroed 2 0).applyAll demoSOps).2.getDepth = .ok 3 := by decide +kernel
example := C33_depth demoSlab
example := C33_depth_exact demoSlab
example : ((bagOf 2 demoSOps).map Order.id).map (partings ((bagOf 2 demoSOps).map Order.id)) = [[2, 127], [2, 127], [127]] := by
  decide +kernel
example := C33_walks demoSlab (by decide +kernel)

/-- C29. The panic does occur: after removing the last but one order, removing it again. -/
theorem C29_panic_witness :
    ((Slab.zeroed 2 0).applyAll
      [.insert 12 5 1, .insert 10 7 2, .remove 12, .remove 12]).1 =
      [.inserted, .inserted, .removed (some ⟨12, 5, 1⟩), .panicked] := by decide +kernel

end AOB
