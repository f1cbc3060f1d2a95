import Verif.Spec.Types
import Verif.Proofs.SlabInsert
import Verif.Proofs.SlabRemove
import Verif.Proofs.SlabQuery
/-
The slab as an ordered list of orders: interface used by the matching-engine proofs.
-/
namespace AOB
variable {C : Type}

def Entry.order (e : Entry C) : Order C := ⟨e.key, e.qty, e.cb⟩

/-- The slab holds exactly the orders `os`, in this (key) order. -/
def SRep (s : Slab C) (os : List (Order C)) : Prop := ∃ es, Rep s es ∧ es.map Entry.order = os

/-- The slab holds `L ++ o :: R` and `h` is the handle of `o`. -/
def SAt (s : Slab C) (h : Nat) (L : List (Order C)) (o : Order C) (R : List (Order C)) : Prop :=
  ∃ Le e Re, Rep s (Le ++ e :: Re) ∧ Le.map Entry.order = L ∧ e.order = o ∧ Re.map Entry.order = R ∧
    e.slot = h

theorem SAt.rep {s : Slab C} {h L o R} (hs : SAt s h L o R) : SRep s (L ++ o :: R) := by
  obtain ⟨Le, e, Re, hr, rfl, rfl, rfl, rfl⟩ := hs
  exact ⟨_, hr, by simp⟩

theorem SRep.sorted {s : Slab C} {os} (hs : SRep s os) : os.Pairwise (fun a b => a.id < b.id) := by
  obtain ⟨es, ⟨ot, hr, rfl⟩, rfl⟩ := hs
  rw [List.pairwise_map]
  exact hr.sorted

theorem SRep.id_lt {s : Slab C} {os} (hs : SRep s os) : ∀ o ∈ os, o.id < 2 ^ 128 := by
  obtain ⟨es, ⟨ot, hr, rfl⟩, rfl⟩ := hs
  intro o ho
  obtain ⟨e, he, rfl⟩ := List.mem_map.1 ho
  exact hr.key_lt e he

theorem SRep.length_le {s : Slab C} {os} (hs : SRep s os) : os.length ≤ s.leafNodes.length := by
  obtain ⟨es, ⟨ot, hr, rfl⟩, rfl⟩ := hs
  simpa using hr.ents_le

theorem SRep.leafCount {s : Slab C} {os} (hs : SRep s os) : s.header.leafCount = os.length := by
  obtain ⟨es, ⟨ot, hr, rfl⟩, rfl⟩ := hs
  simpa using hr.count

theorem SAt.leaf {s : Slab C} {h L o R} (hs : SAt s h L o R) :
    s.leafNodes[h]? = some ⟨o.id, o.qty⟩ := by
  obtain ⟨Le, e, Re, ⟨ot, hr, heq⟩, rfl, rfl, rfl, rfl⟩ := hs
  exact (hr.ents_mem e (by rw [heq]; simp)).2.1

theorem SAt.cb {s : Slab C} {h L o R} (hs : SAt s h L o R) :
    s.callbackInfos[h]? = some o.cb := by
  obtain ⟨Le, e, Re, ⟨ot, hr, heq⟩, rfl, rfl, rfl, rfl⟩ := hs
  exact (hr.ents_mem e (by rw [heq]; simp)).2.2

theorem SRep.findMin_nil {s : Slab C} (hs : SRep s []) : s.findMin = .ok none := by
  obtain ⟨es, ⟨ot, hr, rfl⟩, h⟩ := hs
  rw [hr.findMin]
  rw [List.map_eq_nil_iff] at h
  rw [h]; rfl

theorem SRep.findMax_nil {s : Slab C} (hs : SRep s []) : s.findMax = .ok none := by
  obtain ⟨es, ⟨ot, hr, rfl⟩, h⟩ := hs
  rw [hr.findMax]
  rw [List.map_eq_nil_iff] at h
  rw [h]; rfl

theorem SRep.findMin_cons {s : Slab C} {o R} (hs : SRep s (o :: R)) :
    ∃ h, s.findMin = .ok (some h) ∧ SAt s h [] o R := by
  obtain ⟨es, ⟨ot, hr, rfl⟩, h⟩ := hs
  obtain ⟨e, Re, heq, rfl, rfl⟩ := List.map_eq_cons_iff.1 h
  refine ⟨e.slot, ?_, [], e, Re, ⟨ot, hr, by simpa using heq⟩, rfl, rfl, rfl, rfl⟩
  rw [hr.findMin, heq]; rfl

theorem SRep.findMax_concat {s : Slab C} {o L} (hs : SRep s (L ++ [o])) :
    ∃ h, s.findMax = .ok (some h) ∧ SAt s h L o [] := by
  obtain ⟨es, ⟨ot, hr, rfl⟩, h⟩ := hs
  obtain ⟨Le, l2, heq, rfl, h2⟩ := List.map_eq_append_iff.1 h
  obtain ⟨e, Re, rfl, rfl, h3⟩ := List.map_eq_cons_iff.1 h2
  rw [List.map_eq_nil_iff] at h3
  subst h3
  refine ⟨e.slot, ?_, Le, e, [], ⟨ot, hr, heq⟩, rfl, rfl, rfl, rfl⟩
  rw [hr.findMax, heq]; simp

theorem SRep.orders {s : Slab C} {os} (hs : SRep s os) : s.orders = .ok os := by
  obtain ⟨es, ⟨ot, hr, rfl⟩, rfl⟩ := hs
  unfold Slab.orders
  rw [hr.traverse, ok_bind]
  simp [Function.comp_def, Entry.order, Entry.node, LeafNode.orderId]

theorem SRep.insert_new {s : Slab C} {os} (hs : SRep s os) {key qty : Nat} (hk : key < 2 ^ 128)
    (hnew : ∀ o ∈ os, o.id ≠ key) (hroom : os.length < s.leafNodes.length) :
    ∃ h s' c L R, s.insertLeaf ⟨key, qty⟩ = .ok ((h, none), s') ∧ SAt s' h L ⟨key, qty, c⟩ R ∧
      os = L ++ R ∧ (∀ o ∈ L, o.id < key) ∧ (∀ o ∈ R, key < o.id) ∧ SameSize s s' := by
  obtain ⟨es, ⟨ot, hr, rfl⟩, rfl⟩ := hs
  obtain ⟨a, s', t', c, L, R, h1, h2, h3, h4, h5, h6, h7⟩ := hr.insert_new (qty := qty) hk
    (fun e he => hnew e.order (List.mem_map_of_mem he)) (by simpa using hroom)
  refine ⟨a, s', c, L.map Entry.order, R.map Entry.order, h1,
    ⟨L, _, R, ⟨some t', h2, h3⟩, rfl, rfl, rfl, rfl⟩, by rw [h4, List.map_append], ?_, ?_, h7⟩
  · intro o ho
    obtain ⟨e, he, rfl⟩ := List.mem_map.1 ho
    exact h5 e he
  · intro o ho
    obtain ⟨e, he, rfl⟩ := List.mem_map.1 ho
    exact h6 e he

theorem SRep.insert_full {s : Slab C} {os} (hs : SRep s os) {key qty : Nat} (hk : key < 2 ^ 128)
    (hnew : ∀ o ∈ os, o.id ≠ key) (hfull : os.length = s.leafNodes.length) :
    s.insertLeaf ⟨key, qty⟩ = .error (.ao .slabOutOfSpace) := by
  obtain ⟨es, ⟨ot, hr, rfl⟩, rfl⟩ := hs
  exact hr.insert_full hk (fun e he => hnew e.order (List.mem_map_of_mem he)) (by simpa using hfull)

theorem SRep.remove {s : Slab C} {L o R} (hs : SRep s (L ++ o :: R)) :
    ∃ s', s.removeByKey o.id = .ok (some (⟨o.id, o.qty⟩, o.cb), s') ∧ SRep s' (L ++ R) ∧
      SameSize s s' := by
  obtain ⟨es, ⟨ot, hr, rfl⟩, h⟩ := hs
  obtain ⟨Le, l2, heq, rfl, h2⟩ := List.map_eq_append_iff.1 h
  obtain ⟨e, Re, rfl, rfl, rfl⟩ := List.map_eq_cons_iff.1 h2
  obtain ⟨s', ot', h1, h2, h3, h4, _⟩ := hr.remove_present heq rfl
  exact ⟨s', h1, ⟨_, ⟨ot', h2, h3⟩, by simp⟩, h4⟩

/-- Removing a key that is not there: `None`, except that with exactly one order left a stale key in
slot 0 makes the code panic. -/
theorem SRep.remove_missing {s : Slab C} {os} (hs : SRep s os) {key : Nat}
    (hne : ∀ o ∈ os, o.id ≠ key) :
    s.removeByKey key = .ok (none, s) ∨
      (os.length = 1 ∧ s.leafNodes[0]?.map LeafNode.key = some key ∧ s.removeByKey key = .error .panic) := by
  obtain ⟨es, ⟨ot, hr, rfl⟩, rfl⟩ := hs
  have hne' : ∀ e ∈ oents ot, e.key ≠ key := fun e he => hne e.order (List.mem_map_of_mem he)
  by_cases hl : (oents ot).length = 1
  · obtain ⟨e, he⟩ := List.length_eq_one_iff.1 hl
    rw [hr.remove_missing_one he (hne' e (by simp [he]))]
    by_cases h0 : s.leafNodes[0]?.map LeafNode.key = some key
    · right; exact ⟨by simpa using hl, h0, if_pos h0⟩
    · left; exact if_neg h0
  · left; exact hr.remove_missing hne' hl

theorem SRep.remove_missing_iff {s : Slab C} {os} (hs : SRep s os) {key : Nat} (hne : ∀ o ∈ os, o.id ≠ key) :
    s.removeByKey key = .error .panic ↔ os.length = 1 ∧ s.leafNodes[0]?.map LeafNode.key = some key := by
  obtain ⟨es, ⟨ot, hr, rfl⟩, rfl⟩ := hs
  have hne' : ∀ e ∈ oents ot, e.key ≠ key := fun e he => hne e.order (List.mem_map_of_mem he)
  by_cases hl : (oents ot).length = 1
  · obtain ⟨e, he⟩ := List.length_eq_one_iff.1 hl
    rw [hr.remove_missing_one he (hne' e (by simp [he]))]
    split <;> rename_i h0
    · exact ⟨fun _ => ⟨by simpa using hl, h0⟩, fun _ => rfl⟩
    · exact ⟨fun h => (by cases h), fun h => absurd h.2 h0⟩
  · rw [hr.remove_missing hne' hl]
    exact ⟨fun h => (by cases h), fun h => absurd (by simpa using h.1) hl⟩

/-- Membership of a key in the list. -/
theorem SRep.unique {s : Slab C} {os} (hs : SRep s os) {a b : Order C} (ha : a ∈ os) (hb : b ∈ os)
    (h : a.id = b.id) : a = b := by
  have hp := hs.sorted
  clear hs
  induction os with
  | nil => simp at ha
  | cons x os ih =>
    rw [List.pairwise_cons] at hp
    rcases List.mem_cons.1 ha with rfl | ha'
    · rcases List.mem_cons.1 hb with rfl | hb'
      · rfl
      · have := hp.1 b hb'; omega
    · rcases List.mem_cons.1 hb with rfl | hb'
      · have := hp.1 a ha'; omega
      · exact ih ha' hb' hp.2

private theorem rep_update {s : Slab C} {Le Re : List (Entry C)} {e e' : Entry C}
    (hr : Rep s (Le ++ e :: Re)) (hs : e'.slot = e.slot) (hk : e'.key = e.key) :
    Rep { s with leafNodes := s.leafNodes.set e.slot ⟨e'.key, e'.qty⟩,
                 callbackInfos := s.callbackInfos.set e.slot e'.cb } (Le ++ e' :: Re) := by
  obtain ⟨ot, hr, heq⟩ := hr
  have hnd : ((Le ++ e :: Re).map Entry.slot).Nodup := by
    rw [← heq]; exact hr.leafAlloc.nodup
  have hsl : ∀ x ∈ Le ++ Re, x.slot ≠ e.slot := by
    intro x hx
    rw [List.map_append, List.map_cons, List.nodup_middle, List.nodup_cons] at hnd
    intro h
    apply hnd.1
    rw [← List.map_append, ← h]
    exact List.mem_map_of_mem hx
  have hem := (hr.ents_mem e (by rw [heq]; simp)).2
  have hlt := lt_of_getElem? hem.1
  have hlt2 := lt_of_getElem? hem.2
  let g : Entry C → Entry C := fun x => if x.slot = e.slot then { e' with slot := x.slot, key := x.key } else x
  have hge : g e = e' := by
    simp only [g, if_true]
    cases e'; simp only at hs hk; subst hs hk; rfl
  have hgx : ∀ x ∈ Le ++ Re, g x = x := fun x hx => if_neg (hsl x hx)
  refine ⟨ot.map (Tree.mapEnt g), hr.update (g := g) (fun x => by simp only [g]; split <;> rfl)
    (fun x => by simp only [g]; split <;> rfl) (by simp) (by simp) ?_ ?_, ?_⟩
  · intro i hi
    rw [List.getElem?_set_ne]
    intro h
    apply hi
    rw [← h]
    exact List.mem_map_of_mem (by rw [heq]; simp)
  · intro x hx
    rw [heq, List.mem_append, List.mem_cons] at hx
    by_cases hxe : x = e
    · subst hxe
      rw [hge, List.getElem?_set_self hlt, List.getElem?_set_self hlt2]
      exact ⟨rfl, rfl⟩
    · have hx' : x ∈ Le ++ Re := by
        rw [List.mem_append]; tauto
      have hne := hsl x hx'
      rw [hgx x hx', List.getElem?_set_ne (fun h => hne h.symm), List.getElem?_set_ne (fun h => hne h.symm)]
      exact (hr.ents_mem x (by rw [heq, List.mem_append, List.mem_cons]; tauto)).2
  · rw [oents_map, heq, List.map_append, List.map_cons, hge]
    congr 1
    · conv_rhs => rw [← List.map_id Le]
      exact List.map_congr_left (fun x hx => hgx x (List.mem_append_left _ hx))
    · congr 1
      conv_rhs => rw [← List.map_id Re]
      exact List.map_congr_left (fun x hx => hgx x (List.mem_append_right _ hx))

theorem SAt.setQty {s : Slab C} {h L o R} (hs : SAt s h L o R) (q : Nat) :
    ∃ s', s.setBaseQuantity h q = .ok s' ∧ SAt s' h L { o with qty := q } R ∧ SameSize s s' := by
  have hl := hs.leaf
  have hc := hs.cb
  obtain ⟨Le, e, Re, hr, rfl, rfl, rfl, rfl⟩ := hs
  have := rep_update (e' := { e with qty := q }) hr rfl rfl
  unfold Slab.setBaseQuantity
  rw [idx_eq hl, ok_bind, setIdx_eq (lt_of_getElem? hl), ok_bind]
  refine ⟨_, rfl, ⟨Le, { e with qty := q }, Re, ?_, rfl, rfl, rfl, rfl⟩, ?_⟩
  · have h2 : s.callbackInfos.set e.slot e.cb = s.callbackInfos := by
      apply List.ext_getElem?
      intro i
      rw [List.getElem?_set]
      split
      · rename_i h; subst h
        rw [if_pos (lt_of_getElem? hc)]; exact hc.symm
      · rfl
    simp only [h2] at this
    exact this
  · exact ⟨by simp, rfl, rfl⟩

theorem SAt.setCb {s : Slab C} {h L o R} (hs : SAt s h L o R) (c : C) :
    ∃ s', s.setCallbackInfo h c = .ok s' ∧ SAt s' h L { o with cb := c } R ∧ SameSize s s' := by
  have hl := hs.leaf
  have hc := hs.cb
  obtain ⟨Le, e, Re, hr, rfl, rfl, rfl, rfl⟩ := hs
  have := rep_update (e' := { e with cb := c }) hr rfl rfl
  unfold Slab.setCallbackInfo
  rw [setIdx_eq (lt_of_getElem? hc), ok_bind]
  refine ⟨_, rfl, ⟨Le, { e with cb := c }, Re, ?_, rfl, rfl, rfl, rfl⟩, ?_⟩
  · have h2 : s.leafNodes.set e.slot ⟨e.key, e.qty⟩ = s.leafNodes := by
      apply List.ext_getElem?
      intro i
      rw [List.getElem?_set]
      split
      · rename_i h; subst h
        rw [if_pos (lt_of_getElem? hl)]; exact hl.symm
      · rfl
    simp only [h2] at this
    exact this
  · exact ⟨rfl, rfl, by simp⟩

theorem srep_zeroed (cap : Nat) (c0 : C) (h : cap < 2 ^ 31) (slack : Nat := 0) :
    SRep (Slab.zeroed cap c0 slack) [] :=
  ⟨[], rep_zeroed cap c0 h slack, rfl⟩

end AOB
