import Verif.Proofs.Tree
/-
The representation invariant of a slab: a crit-bit tree plus the two slot allocators.
-/
namespace AOB

/-! ### Small lemmas about the primitives -/

theorem idx_eq {α : Type} {xs : List α} {i : Nat} {x : α} (h : xs[i]? = some x) :
    idx xs i = .ok x := by unfold idx; rw [h]

theorem setIdx_eq {α : Type} {xs : List α} {i : Nat} {x : α} (h : i < xs.length) :
    setIdx xs i x = .ok (xs.set i x) := by unfold setIdx; rw [if_pos h]

theorem lt_of_getElem? {α : Type} {xs : List α} {i : Nat} {x : α} (h : xs[i]? = some x) :
    i < xs.length := (List.getElem?_eq_some_iff.1 h).1

@[simp] theorem ok_bind {α β : Type} (a : α) (f : α → Res β) :
    (Except.ok a >>= f : Res β) = f a := rfl
@[simp] theorem err_bind {α β : Type} (e : Err) (f : α → Res β) :
    (Except.error e >>= f : Res β) = .error e := rfl

theorem addU32_ok {a b : Nat} (h : a + b < 2 ^ 32) : addU32 a b = .ok (a + b) := by
  unfold addU32 U32; rw [if_pos (by omega)]
theorem addU64_ok {a b : Nat} (h : a + b < 2 ^ 64) : addU64 a b = .ok (a + b) := by
  unfold addU64 U64; rw [if_pos (by omega)]
theorem subU_ok {a b : Nat} (h : b ≤ a) : subU a b = .ok (a - b) := by
  unfold subU; rw [if_pos h]
theorem remU_ok {a b : Nat} (h : 0 < b) : remU a b = .ok (a % b) := by
  unfold remU; rw [if_neg (by omega)]

/-! ### Slot allocators -/

/-- Linked free list: `head` is the first element, each element's `next` is the following one. -/
def Chain {α : Type} (next : α → Nat) (xs : List α) : Nat → List Nat → Prop
  | _, [] => True
  | h, f :: fs => h = f ∧ ∃ n, xs[f]? = some n ∧ Chain next xs (next n) fs

theorem Chain.congr {α : Type} {next : α → Nat} {xs xs' : List α} {h : Nat} {fs : List Nat}
    (hc : Chain next xs h fs) (heq : ∀ i ∈ fs, xs'[i]? = xs[i]?) : Chain next xs' h fs := by
  induction fs generalizing h with
  | nil => trivial
  | cons f fs ih =>
    obtain ⟨h1, n, h2, h3⟩ := hc
    refine ⟨h1, n, ?_, ih h3 (fun i hi => heq i (by simp [hi]))⟩
    rw [heq f (by simp), h2]

/-- The used slots, together with the free list, are exactly the slots below the bump index. -/
def Alloc {α : Type} (next : α → Nat) (xs : List α) (len head bump : Nat) (used : List Nat) : Prop :=
  ∃ free : List Nat, free.length = len ∧ Chain next xs head free ∧
    (used ++ free).Perm (List.range bump) ∧ bump ≤ xs.length

namespace Alloc
variable {α : Type} {next : α → Nat} {xs xs' : List α} {len head bump : Nat} {used used' : List Nat}

theorem perm (h : Alloc next xs len head bump used) (hp : used'.Perm used) :
    Alloc next xs len head bump used' := by
  obtain ⟨free, h1, h2, h3, h4⟩ := h
  exact ⟨free, h1, h2, (hp.append_right free).trans h3, h4⟩

theorem nodup (h : Alloc next xs len head bump used) : used.Nodup := by
  obtain ⟨free, h1, h2, h3, h4⟩ := h
  exact (List.nodup_append.1 (h3.nodup_iff.2 List.nodup_range)).1

theorem used_lt (h : Alloc next xs len head bump used) : ∀ i ∈ used, i < xs.length := by
  obtain ⟨free, h1, h2, h3, h4⟩ := h
  intro i hi
  have := h3.mem_iff.1 (List.mem_append_left free hi)
  rw [List.mem_range] at this
  omega

theorem used_lt_bump (h : Alloc next xs len head bump used) : ∀ i ∈ used, i < bump := by
  obtain ⟨free, h1, h2, h3, h4⟩ := h
  intro i hi
  have := h3.mem_iff.1 (List.mem_append_left free hi)
  rwa [List.mem_range] at this

theorem length (h : Alloc next xs len head bump used) : used.length + len = bump := by
  obtain ⟨free, h1, h2, h3, h4⟩ := h
  have := h3.length_eq
  simp at this
  omega

theorem bump_le (h : Alloc next xs len head bump used) : bump ≤ xs.length := h.choose_spec.2.2.2

theorem congr (h : Alloc next xs len head bump used) (hlen : xs'.length = xs.length)
    (heq : ∀ i, i ∉ used → xs'[i]? = xs[i]?) : Alloc next xs' len head bump used := by
  obtain ⟨free, h1, h2, h3, h4⟩ := h
  refine ⟨free, h1, h2.congr ?_, h3, by omega⟩
  intro i hi
  apply heq
  intro hu
  have := List.nodup_append.1 (h3.nodup_iff.2 List.nodup_range)
  exact this.2.2 i hu i hi rfl

/-- Popping the free list. -/
theorem pop (h : Alloc next xs len head bump used) (hlen : len ≠ 0) :
    ∃ n, xs[head]? = some n ∧ head ∉ used ∧ head < bump ∧
      Alloc next xs (len - 1) (next n) bump (head :: used) := by
  obtain ⟨free, h1, h2, h3, h4⟩ := h
  cases free with
  | nil => simp at h1; omega
  | cons f fs =>
    obtain ⟨rfl, n, hn, hc⟩ := h2
    refine ⟨n, hn, ?_, ?_, fs, ?_, hc, ?_, h4⟩
    · intro hu
      have := List.nodup_append.1 (h3.nodup_iff.2 List.nodup_range)
      exact this.2.2 head hu head (by simp) rfl
    · have := h3.mem_iff.1 (List.mem_append_right used (List.mem_cons_self))
      rwa [List.mem_range] at this
    · simp at h1; omega
    · refine List.Perm.trans ?_ h3
      exact List.perm_middle.symm

/-- Bump allocation. -/
theorem push (h : Alloc next xs 0 head bump used) (hb : bump < xs.length) :
    bump ∉ used ∧ Alloc next xs 0 head (bump + 1) (bump :: used) := by
  refine ⟨fun hu => absurd (h.used_lt_bump bump hu) (by omega), ?_⟩
  obtain ⟨free, h1, h2, h3, h4⟩ := h
  refine ⟨free, h1, h2, ?_, hb⟩
  rw [List.range_succ, List.cons_append]
  exact (List.Perm.cons bump h3).trans (List.perm_append_comm (l₁ := [bump]))

/-- Freeing a slot: the slot is linked in front of the list (when the list is empty its `next` does
not matter). -/
theorem free {slot : Nat} {n : α} (h : Alloc next xs len head bump (slot :: used))
    (hl : xs'.length = xs.length) (heq : ∀ i, i ≠ slot → xs'[i]? = xs[i]?)
    (hn : xs'[slot]? = some n) (hnext : len ≠ 0 → next n = head) :
    Alloc next xs' (len + 1) slot bump used := by
  obtain ⟨free, h1, h2, h3, h4⟩ := h
  have hnd := h3.nodup_iff.2 List.nodup_range
  refine ⟨slot :: free, by simp [h1], ⟨rfl, n, hn, ?_⟩, ?_, by omega⟩
  · cases free with
    | nil => trivial
    | cons f fs =>
      have : len ≠ 0 := by simp at h1; omega
      rw [hnext this]
      apply h2.congr
      intro i hi
      apply heq
      rintro rfl
      rw [List.cons_append, List.nodup_cons] at hnd
      exact hnd.1 (List.mem_append_right _ hi)
  · exact List.perm_middle.trans h3

end Alloc

/-! ### The invariant -/

/-- Leaf free-list link (`critbit.rs` 181, 191). -/
def leafNext (n : LeafNode) : Nat := n.baseQuantity % U32
/-- Inner free-list link (`critbit.rs` 210, 220). -/
def innerNext (n : InnerNode) : Nat := n.prefixLen % U32

def oents {C : Type} : Option (Tree C) → List (Entry C)
  | none => []
  | some t => t.ents

def oinners {C : Type} : Option (Tree C) → List Nat
  | none => []
  | some t => t.inners

/-- The slab memory holds the tree `ot`, and its allocators are consistent with it. -/
structure RepT {C : Type} (s : Slab C) (ot : Option (Tree C)) : Prop where
  root : ∀ t ∈ ot, s.header.rootNode = t.handle ∧
    t.Mem s.leafNodes s.innerNodes s.callbackInfos ∧ t.Wf
  count : s.header.leafCount = (oents ot).length
  leafAlloc : Alloc leafNext s.leafNodes s.header.leafFreeListLen s.header.leafFreeListHead
    s.header.leafBumpIndex ((oents ot).map Entry.slot)
  innerAlloc : Alloc innerNext s.innerNodes s.header.innerNodeFreeListLen
    s.header.innerNodeFreeListHead s.header.innerNodeBumpIndex (oinners ot)
  lens : s.innerNodes.length + 1 = s.leafNodes.length
  cbs : s.leafNodes.length ≤ s.callbackInfos.length
  cap : s.leafNodes.length ≤ 2 ^ 31

/-- The slab represents the sorted list of entries `es`. -/
def Rep {C : Type} (s : Slab C) (es : List (Entry C)) : Prop := ∃ ot, RepT s ot ∧ oents ot = es

/-- Array sizes of a slab. -/
def SameSize {C : Type} (s s' : Slab C) : Prop :=
  s'.leafNodes.length = s.leafNodes.length ∧ s'.innerNodes.length = s.innerNodes.length ∧
  s'.callbackInfos.length = s.callbackInfos.length

theorem SameSize.refl {C : Type} (s : Slab C) : SameSize s s := ⟨rfl, rfl, rfl⟩
theorem SameSize.trans {C : Type} {a b c : Slab C} (h : SameSize a b) (h' : SameSize b c) :
    SameSize a c := ⟨h'.1.trans h.1, h'.2.1.trans h.2.1, h'.2.2.trans h.2.2⟩

namespace RepT
variable {C : Type} {s : Slab C} {ot : Option (Tree C)}

theorem count_zero (h : RepT s ot) : s.header.leafCount = 0 ↔ ot = none := by
  rw [h.count]
  cases ot with
  | none => simp [oents]
  | some t => simp [oents, t.ents_ne_nil]

theorem ents_le (h : RepT s ot) : (oents ot).length ≤ s.leafNodes.length := by
  have h1 := h.leafAlloc.length
  have h2 := h.leafAlloc.bump_le
  simp at h1
  omega

theorem inners_le {t : Tree C} (h : RepT s (some t)) : t.inners.length ≤ s.innerNodes.length := by
  have h1 := h.ents_le
  have h2 := t.ents_length
  have h3 := h.lens
  simp [oents] at h1
  omega

theorem wf {t : Tree C} (h : RepT s (some t)) : t.Wf := (h.root t rfl).2.2
theorem mem {t : Tree C} (h : RepT s (some t)) :
    t.Mem s.leafNodes s.innerNodes s.callbackInfos := (h.root t rfl).2.1
theorem root_eq {t : Tree C} (h : RepT s (some t)) : s.header.rootNode = t.handle := (h.root t rfl).1

theorem sorted (h : RepT s ot) : (oents ot).Pairwise (fun a b => a.key < b.key) := by
  cases ot with
  | none => simp [oents]
  | some t => exact h.wf.sorted

theorem ents_mem (h : RepT s ot) : ∀ e ∈ oents ot, e.slot < 2 ^ 31 ∧
    s.leafNodes[e.slot]? = some ⟨e.key, e.qty⟩ ∧ s.callbackInfos[e.slot]? = some e.cb := by
  cases ot with
  | none => simp [oents]
  | some t => exact h.mem.ents_mem

theorem key_lt (h : RepT s ot) : ∀ e ∈ oents ot, e.key < 2 ^ 128 := by
  cases ot with
  | none => simp [oents]
  | some t => exact h.wf.key_lt

end RepT

/-! ### Allocation -/

section
variable {C : Type}

/-- Room for a leaf: `allocate_leaf` succeeds and hands out an unused slot. -/
theorem allocateLeaf_ok {s : Slab C} {used : List Nat}
    (ha : Alloc leafNext s.leafNodes s.header.leafFreeListLen s.header.leafFreeListHead
      s.header.leafBumpIndex used) (hcap : s.leafNodes.length ≤ 2 ^ 31)
    (hroom : used.length < s.leafNodes.length) :
    ∃ a hd, s.allocateLeaf = .ok (a, { s with header := hd }) ∧ a ∉ used ∧ a < s.leafNodes.length ∧
      Alloc leafNext s.leafNodes hd.leafFreeListLen hd.leafFreeListHead hd.leafBumpIndex (a :: used) ∧
      hd.innerNodeFreeListLen = s.header.innerNodeFreeListLen ∧
      hd.innerNodeFreeListHead = s.header.innerNodeFreeListHead ∧
      hd.innerNodeBumpIndex = s.header.innerNodeBumpIndex ∧
      hd.rootNode = s.header.rootNode ∧ hd.leafCount = s.header.leafCount := by
  have hlen := ha.length
  have hble := ha.bump_le
  unfold Slab.allocateLeaf
  by_cases h0 : s.header.leafFreeListLen = 0
  · rw [if_pos h0, if_neg (by omega)]
    rw [addU32_ok (by omega)]
    have ha' := ha
    rw [h0] at ha'
    obtain ⟨hn, hp⟩ := ha'.push (by omega)
    refine ⟨s.header.leafBumpIndex, { s.header with leafBumpIndex := s.header.leafBumpIndex + 1 },
      rfl, hn, by omega, ?_, rfl, rfl, rfl, rfl, rfl⟩
    simpa only [h0] using hp
  · rw [if_neg h0]
    obtain ⟨n, hn, hnu, hb, hp⟩ := ha.pop h0
    dsimp only
    rw [idx_eq hn, ok_bind, subU_ok (by omega)]
    exact ⟨s.header.leafFreeListHead, _, rfl, hnu, by omega, hp, rfl, rfl, rfl, rfl, rfl⟩

/-- No room for a leaf: `allocate_leaf` fails with the I/O error. -/
theorem allocateLeaf_full {s : Slab C} {used : List Nat}
    (ha : Alloc leafNext s.leafNodes s.header.leafFreeListLen s.header.leafFreeListHead
      s.header.leafBumpIndex used)
    (hfull : used.length = s.leafNodes.length) : s.allocateLeaf = .error .io := by
  have hlen := ha.length
  have hble := ha.bump_le
  unfold Slab.allocateLeaf
  rw [if_pos (by omega), if_pos (by omega)]

theorem allocateInner_ok {s : Slab C} {used : List Nat}
    (ha : Alloc innerNext s.innerNodes s.header.innerNodeFreeListLen s.header.innerNodeFreeListHead
      s.header.innerNodeBumpIndex used) (hcap : s.innerNodes.length < 2 ^ 31)
    (hroom : used.length < s.innerNodes.length) :
    ∃ a hd, s.allocateInnerNode = .ok (notU32 a, { s with header := hd }) ∧ a ∉ used ∧
      a < s.innerNodes.length ∧
      Alloc innerNext s.innerNodes hd.innerNodeFreeListLen hd.innerNodeFreeListHead
        hd.innerNodeBumpIndex (a :: used) ∧
      hd.leafFreeListLen = s.header.leafFreeListLen ∧
      hd.leafFreeListHead = s.header.leafFreeListHead ∧
      hd.leafBumpIndex = s.header.leafBumpIndex ∧
      hd.rootNode = s.header.rootNode ∧ hd.leafCount = s.header.leafCount := by
  have hlen := ha.length
  have hble := ha.bump_le
  unfold Slab.allocateInnerNode
  by_cases h0 : s.header.innerNodeFreeListLen = 0
  · rw [if_pos h0, if_neg (by omega)]
    rw [addU32_ok (by omega)]
    have ha' := ha
    rw [h0] at ha'
    obtain ⟨hn, hp⟩ := ha'.push (by omega)
    refine ⟨s.header.innerNodeBumpIndex,
      { s.header with innerNodeBumpIndex := s.header.innerNodeBumpIndex + 1 },
      rfl, hn, by omega, ?_, rfl, rfl, rfl, rfl, rfl⟩
    simpa only [h0] using hp
  · rw [if_neg h0]
    obtain ⟨n, hn, hnu, hb, hp⟩ := ha.pop h0
    dsimp only
    rw [idx_eq hn, ok_bind, subU_ok (by omega)]
    exact ⟨s.header.innerNodeFreeListHead, _, rfl, hnu, by omega, hp, rfl, rfl, rfl, rfl, rfl⟩

end

/-- A zeroed slab is empty. -/
theorem rep_zeroed {C : Type} (cap : Nat) (c0 : C) (h : cap < 2 ^ 31) (slack : Nat := 0) :
    Rep (Slab.zeroed cap c0 slack) [] := by
  refine ⟨none, ?_, rfl⟩
  constructor
  · intro t ht; cases ht
  · rfl
  · exact ⟨[], rfl, trivial, by simp [Slab.zeroed, oents], by simp [Slab.zeroed]⟩
  · exact ⟨[], rfl, trivial, by simp [Slab.zeroed, oinners], by simp [Slab.zeroed]⟩
  · simp [Slab.zeroed]
  · simp [Slab.zeroed]
  · simp [Slab.zeroed]; omega

end AOB
