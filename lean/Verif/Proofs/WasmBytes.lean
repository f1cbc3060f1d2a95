import Verif.Spec.WasmEdit
import Verif.Proofs.Wasm
/-
Nodes of the older slab format as bytes: what is written is read back, and nothing else changes.
-/
namespace AOB.Wasm

theorem slice_get (b : Bytes) (i j n : Nat) : (Js.slice b i j)[n]? = if n < j - i then b[i + n]? else none := by
  unfold Js.slice
  rw [List.getElem?_take, List.getElem?_drop]

theorem patch_length {data b : Bytes} {off : Nat} (h : off + b.length ≤ data.length) :
    (patch data off b).length = data.length := by
  unfold patch
  simp only [List.length_append, List.length_take, List.length_drop]; omega

theorem patch_get {data b : Bytes} {off : Nat} (h : off + b.length ≤ data.length) (i : Nat) :
    (patch data off b)[i]? = if i < off then data[i]? else if i < off + b.length then b[i - off]? else data[i]? := by
  unfold patch
  rw [List.append_assoc, List.getElem?_append, List.length_take, Nat.min_eq_left (by omega)]
  split
  · rw [List.getElem?_take, if_pos ‹_›]
  · rw [List.getElem?_append]
    split
    · rw [if_pos (by omega)]
    · rw [if_neg (by omega), List.getElem?_drop]
      congr 1; omega

theorem patch_other {data b : Bytes} {off i j : Nat} (h : off + b.length ≤ data.length)
    (hd : j ≤ off ∨ off + b.length ≤ i) : Js.slice (patch data off b) i j = Js.slice data i j := by
  apply List.ext_getElem?
  intro n
  rw [slice_get, slice_get]
  by_cases hn : n < j - i
  · rw [if_pos hn, if_pos hn, patch_get h]
    by_cases h1 : i + n < off
    · rw [if_pos h1]
    · rw [if_neg h1, if_neg (by omega)]
  · rw [if_neg hn, if_neg hn]

theorem patch_same {data b : Bytes} {off n : Nat} (h : off + b.length ≤ data.length) (hb : b.length ≤ n) :
    ∃ r, Js.slice (patch data off b) off (off + n) = b ++ r := by
  refine ⟨Js.slice data (off + b.length) (off + n), ?_⟩
  apply List.ext_getElem?
  intro i
  rw [slice_get, List.getElem?_append, slice_get]
  by_cases hi : i < b.length
  · rw [if_pos hi, if_pos (by omega), patch_get h, if_neg (by omega), if_pos (by omega)]
    congr 1; omega
  · rw [if_neg hi]
    by_cases hn : i < off + n - off
    · rw [if_pos hn, if_pos (by omega), patch_get h, if_neg (by omega), if_neg (by omega)]
      congr 1; omega
    · rw [if_neg hn, if_neg (by omega)]

theorem bytes_length {n : Node} {cb : Nat} (h : n.Fits cb) : n.bytes.length ≤ computeSlotSize cb := by
  unfold computeSlotSize
  cases n <;> simp only [Node.bytes, List.length_cons, List.length_append, toLE_length, List.length_nil] <;>
    simp only [Node.Fits] at h <;> omega

theorem read_bytes {n : Node} {cb : Nat} (h : n.Fits cb) (r : Bytes) : readNode (n.bytes ++ r) cb = .ok n := by
  have p4 : (2 : Nat) ^ 32 = 256 ^ 4 := by decide
  have p8 : (2 : Nat) ^ 64 = 256 ^ 8 := by decide
  have p16 : (2 : Nat) ^ 128 = 256 ^ 16 := by decide
  cases n with
  | uninitialized => rfl
  | inner p k c0 c1 =>
    simp only [Node.Fits] at h
    obtain ⟨h1, h2, h3, h4⟩ := h
    rw [p4] at h1 h3 h4
    rw [p16] at h2
    rw [show (Node.inner p k c0 c1).bytes ++ r = 1 :: (toLE 4 p ++ toLE 16 k ++ toLE 4 c0 ++ toLE 4 c1 ++ r) from rfl]
    unfold readNode
    rw [List.getElem?_cons_zero]
    dsimp only
    rw [if_neg (by decide), if_pos rfl, if_neg (by simp; omega)]
    have e : ∀ off n, field (1 :: (toLE 4 p ++ toLE 16 k ++ toLE 4 c0 ++ toLE 4 c1 ++ r)) (off + 1) n =
        field (toLE 4 p ++ (toLE 16 k ++ (toLE 4 c0 ++ (toLE 4 c1 ++ r)))) off n := by
      intro off n
      unfold field
      simp only [List.drop_succ_cons, List.append_assoc]
    rw [e 0, e 4, e 20, e 24]
    rw [field_head _ h1]
    rw [field_skip _ _ 4 16 (by simp), toLE_length, field_head _ h2]
    rw [field_skip _ _ 20 4 (by simp), toLE_length, field_skip _ _ _ 4 (by simp), toLE_length, field_head _ h3]
    rw [field_skip _ _ 24 4 (by simp), toLE_length, field_skip _ _ _ 4 (by simp), toLE_length,
      field_skip _ _ _ 4 (by simp), toLE_length, field_head _ h4]
  | leaf k c q =>
    simp only [Node.Fits] at h
    obtain ⟨h1, h2, h3⟩ := h
    rw [p16] at h1
    rw [p8] at h3
    rw [show (Node.leaf k c q).bytes ++ r = 2 :: (toLE 16 k ++ c ++ toLE 8 q ++ r) from rfl]
    unfold readNode
    rw [List.getElem?_cons_zero]
    dsimp only
    rw [if_neg (by decide), if_neg (by decide), if_pos rfl, if_neg (by simp; omega)]
    have e : ∀ off n, field (2 :: (toLE 16 k ++ c ++ toLE 8 q ++ r)) (off + 1) n =
        field (toLE 16 k ++ (c ++ (toLE 8 q ++ r))) off n := by
      intro off n
      unfold field
      simp only [List.drop_succ_cons, List.append_assoc]
    have e2 : Js.slice (2 :: (toLE 16 k ++ c ++ toLE 8 q ++ r)) 17 (17 + cb) = c := by
      unfold Js.slice
      rw [List.drop_succ_cons, List.append_assoc, List.append_assoc, slice_skip _ _ _ (by simp), toLE_length, Nat.sub_self,
        List.drop_zero, slice_head _ _ _ (by omega)]
    rw [e 0, e2, show 17 + cb = (16 + cb) + 1 by omega, e]
    rw [field_head _ h1]
    rw [field_skip _ _ _ 8 (by simp), toLE_length, field_skip _ _ _ 8 (by omega), h2,
      show 16 + cb - 16 - cb = 0 by omega, field_head _ h3]
  | free m =>
    simp only [Node.Fits] at h
    rw [p4] at h
    rw [show (Node.free m).bytes ++ r = 3 :: (toLE 4 m ++ r) from rfl]
    unfold readNode
    rw [List.getElem?_cons_zero]
    dsimp only
    rw [if_neg (by decide), if_neg (by decide), if_neg (by decide), if_pos rfl, if_neg (by simp)]
    have : field (3 :: (toLE 4 m ++ r)) 1 4 = field (toLE 4 m ++ r) 0 4 := by
      unfold field; rw [List.drop_succ_cons]
    rw [this, field_head _ h]
  | lastFree m =>
    simp only [Node.Fits] at h
    rw [p4] at h
    rw [show (Node.lastFree m).bytes ++ r = 4 :: (toLE 4 m ++ r) from rfl]
    unfold readNode
    rw [List.getElem?_cons_zero]
    dsimp only
    rw [if_neg (by decide), if_neg (by decide), if_neg (by decide), if_neg (by decide), if_pos rfl, if_neg (by simp)]
    have : field (4 :: (toLE 4 m ++ r)) 1 4 = field (toLE 4 m ++ r) 0 4 := by
      unfold field; rw [List.drop_succ_cons]
    rw [this, field_head _ h]

theorem read_fits {b : Bytes} {cb : Nat} {n : Node} (h : readNode b cb = .ok n) : n.Fits cb := by
  have p4 : (256 : Nat) ^ 4 = 2 ^ 32 := by decide
  have p8 : (256 : Nat) ^ 8 = 2 ^ 64 := by decide
  have p16 : (256 : Nat) ^ 16 = 2 ^ 128 := by decide
  have f4 : ∀ off, field b off 4 < 2 ^ 32 := fun off => p4 ▸ field_lt b off 4
  have f8 : ∀ off, field b off 8 < 2 ^ 64 := fun off => p8 ▸ field_lt b off 8
  have f16 : ∀ off, field b off 16 < 2 ^ 128 := fun off => p16 ▸ field_lt b off 16
  unfold readNode at h
  split at h
  · cases h
  split at h
  · cases h; trivial
  split at h
  · split at h
    · cases h
    · cases h; exact ⟨f4 _, f16 _, f4 _, f4 _⟩
  split at h
  · split at h
    · cases h
    · cases h
      refine ⟨f16 _, ?_, f8 _⟩
      rw [Js.slice_length (by omega)]; omega
  split at h
  · split at h
    · cases h
    · cases h; exact f4 _
  split at h
  · split at h
    · cases h
    · cases h; exact f4 _
  · cases h

theorem get_fits {s : Slab} {key : Nat} {n : Node} (h : s.getNode key = .ok n) : n.Fits s.callbackInfoLen := by
  unfold Slab.getNode Wasm.getNode at h
  simp only at h
  split at h
  · split at h
    · rename_i h1
      cases h; exact read_fits h1
    · cases h
  · cases h

theorem get_room {s : Slab} {key : Nat} {n : Node} (h : s.getNode key = .ok n) :
    65 + key * s.slotSize + s.slotSize ≤ s.data.length := by
  unfold Slab.getNode Wasm.getNode at h
  simp only at h
  split at h
  · assumption
  · cases h

/-- Writing a node into a slot that is there. -/
theorem write_ok {s : Slab} {key : Nat} {n : Node} (hs : s.slotSize = computeSlotSize s.callbackInfoLen)
    (hroom : 65 + key * s.slotSize + s.slotSize ≤ s.data.length) (hn : n.Fits s.callbackInfoLen) :
    ∃ d, s.writeNode n key = .ok { s with data := d } ∧ d.length = s.data.length ∧
      ({ s with data := d } : Slab).getNode key = .ok n ∧
      (∀ k, k ≠ key → ({ s with data := d } : Slab).getNode k = s.getNode k) := by
  have hb : n.bytes.length ≤ s.slotSize := hs ▸ bytes_length hn
  have hp : 65 + key * s.slotSize + n.bytes.length ≤ s.data.length := by omega
  have hl := patch_length hp
  refine ⟨patch s.data (65 + key * s.slotSize) n.bytes, ?_, hl, ?_, ?_⟩
  · unfold Slab.writeNode
    simp only
    rw [if_neg (by omega), if_neg (by omega)]
  · unfold Slab.getNode Wasm.getNode
    simp only
    rw [hl, if_pos hroom]
    obtain ⟨r, hr⟩ := patch_same hp hb
    rw [hr, read_bytes hn]
  · intro k hk
    unfold Slab.getNode Wasm.getNode
    simp only
    rw [hl]
    by_cases hlt : 65 + k * s.slotSize + s.slotSize ≤ s.data.length
    · rw [if_pos hlt, if_pos hlt, patch_other hp]
      rcases Nat.lt_or_gt_of_ne hk with h | h
      · left
        have := Nat.mul_le_mul_right s.slotSize (Nat.succ_le_of_lt h)
        rw [Nat.succ_mul] at this; omega
      · right
        have := Nat.mul_le_mul_right s.slotSize (Nat.succ_le_of_lt h)
        rw [Nat.succ_mul] at this; omega
    · rw [if_neg hlt, if_neg hlt]

theorem write!_ok {s : Slab} {key : Nat} {n : Node} (hs : s.slotSize = computeSlotSize s.callbackInfoLen)
    (hroom : 65 + key * s.slotSize + s.slotSize ≤ s.data.length) (hn : n.Fits s.callbackInfoLen) :
    ∃ d, s.writeNode! n key = .ok { s with data := d } ∧ d.length = s.data.length ∧
      ({ s with data := d } : Slab).getNode key = .ok n ∧
      (∀ k, k ≠ key → ({ s with data := d } : Slab).getNode k = s.getNode k) := by
  obtain ⟨d, h1, h2⟩ := write_ok hs hroom hn
  exact ⟨d, by unfold Slab.writeNode!; rw [h1], h2⟩

/-- Freeing a slot. -/
theorem remove_ok {s : Slab} {key : Nat} {n : Node} (hs : s.slotSize = computeSlotSize s.callbackInfoLen)
    (hn : s.getNode key = .ok n) (hh : s.freeListHead < 2 ^ 32) (hl : s.freeListLen + 1 < 2 ^ 64) :
    ∃ d, s.remove key = .ok (n, { s with data := d, freeListHead := key, freeListLen := s.freeListLen + 1 }) ∧
      d.length = s.data.length ∧
      ({ s with data := d } : Slab).getNode key =
        .ok (if s.freeListLen = 0 then .lastFree s.freeListHead else .free s.freeListHead) ∧
      (∀ k, k ≠ key → ({ s with data := d } : Slab).getNode k = s.getNode k) := by
  have hf : (if s.freeListLen = 0 then Node.lastFree s.freeListHead else .free s.freeListHead).Fits s.callbackInfoLen := by
    split <;> exact hh
  obtain ⟨d, h1, h2, h3, h4⟩ := write!_ok hs (get_room hn) hf
  refine ⟨d, ?_, h2, h3, h4⟩
  unfold Slab.remove
  rw [hn]
  dsimp only [Bind.bind, Except.bind]
  rw [h1]
  dsimp only
  unfold addU64
  rw [if_pos (by unfold U64; omega)]

end AOB.Wasm
