import Verif.Spec.Range
import Verif.Proofs.BytesLemmas
/-
Reading and writing account bytes.
-/
namespace AOB

/-! ### Fields -/

theorem toLE_field (b : Bytes) (off n : Nat) (h : off + n ≤ b.length) :
    toLE n (field b off n) = (b.drop off).take n := by
  have hl : ((b.drop off).take n).length = n := by simp; omega
  have := toLE_ofLE ((b.drop off).take n)
  rwa [hl] at this

theorem field_lt (b : Bytes) (off n : Nat) : field b off n < 256 ^ n := by
  refine Nat.lt_of_lt_of_le (ofLE_lt _) (Nat.pow_le_pow_right (by omega) ?_)
  simp only [List.length_take]; omega

theorem field_head {x n : Nat} (r : Bytes) (h : x < 256 ^ n) : field (toLE n x ++ r) 0 n = x := by
  unfold field
  rw [List.drop_zero, List.take_append_of_le_length (by simp), List.take_of_length_le (by simp), ofLE_toLE h]

theorem field_last {x n : Nat} (h : x < 256 ^ n) : field (toLE n x) 0 n = x := by
  have := field_head [] h; rwa [List.append_nil] at this

theorem field_skip (a r : Bytes) (off n : Nat) (h : a.length ≤ off) :
    field (a ++ r) off n = field r (off - a.length) n := by
  unfold field
  rw [List.drop_append, List.drop_eq_nil_of_le h, List.nil_append]

theorem seg_append (b : Bytes) (i n : Nat) : (b.drop i).take n ++ b.drop (i + n) = b.drop i := by
  rw [← List.drop_drop, List.take_append_drop]

theorem seg_last (b : Bytes) (i n : Nat) (h : b.length ≤ i + n) : (b.drop i).take n = b.drop i :=
  List.take_of_length_le (by simp; omega)

theorem slice_head (a r : Bytes) (n : Nat) (h : a.length = n) : (a ++ r).take n = a := by
  subst h; simp

theorem slice_skip (a r : Bytes) (off : Nat) (h : a.length ≤ off) : (a ++ r).drop off = r.drop (off - a.length) := by
  rw [List.drop_append, List.drop_eq_nil_of_le h, List.nil_append]

/-! ### Structs -/

theorem SlabHeader.length_toBytes (h : SlabHeader) : h.toBytes.length = 32 := by
  simp [SlabHeader.toBytes]

theorem SlabHeader.toBytes_ofBytes (b : Bytes) (h : b.length = 32) : (SlabHeader.ofBytes b).toBytes = b := by
  simp only [SlabHeader.toBytes, SlabHeader.ofBytes]
  repeat rw [toLE_field _ _ _ (by omega)]
  rw [seg_last b 28 4 (by omega)]
  iterate 7 rw [seg_append]
  rfl

theorem SlabHeader.ofBytes_toBytes (h : SlabHeader) (hf : h.Fits) : SlabHeader.ofBytes h.toBytes = h := by
  obtain ⟨h1, h2, h3, h4, h5, h6, h7, h8⟩ := hf
  cases h
  simp_all [SlabHeader.ofBytes, SlabHeader.toBytes, field_skip, field_head, field_last]

theorem SlabHeader.fits_ofBytes (b : Bytes) : (SlabHeader.ofBytes b).Fits :=
  ⟨field_lt _ _ _, field_lt _ _ _, field_lt _ _ _, field_lt _ _ _, field_lt _ _ _, field_lt _ _ _, field_lt _ _ _,
    field_lt _ _ _⟩

theorem LeafNode.length_toBytes (n : LeafNode) : n.toBytes.length = 24 := by
  simp [LeafNode.toBytes]

theorem LeafNode.toBytes_ofBytes (b : Bytes) (h : b.length = 24) : (LeafNode.ofBytes b).toBytes = b := by
  simp only [LeafNode.toBytes, LeafNode.ofBytes]
  repeat rw [toLE_field _ _ _ (by omega)]
  rw [seg_last b 16 8 (by omega)]
  iterate 1 rw [seg_append]
  rfl

theorem LeafNode.ofBytes_toBytes (n : LeafNode) (hf : n.Fits) : LeafNode.ofBytes n.toBytes = n := by
  obtain ⟨h1, h2⟩ := hf
  cases n
  simp_all [LeafNode.ofBytes, LeafNode.toBytes, field_skip, field_head, field_last]

theorem LeafNode.fits_ofBytes (b : Bytes) : (LeafNode.ofBytes b).Fits := ⟨field_lt _ _ _, field_lt _ _ _⟩

theorem InnerNode.length_toBytes (n : InnerNode) : n.toBytes.length = 32 := by
  simp [InnerNode.toBytes]

theorem InnerNode.toBytes_ofBytes (b : Bytes) (h : b.length = 32) : (InnerNode.ofBytes b).toBytes = b := by
  simp only [InnerNode.toBytes, InnerNode.ofBytes]
  repeat rw [toLE_field _ _ _ (by omega)]
  rw [seg_last b 28 4 (by omega)]
  iterate 3 rw [seg_append]
  rfl

theorem InnerNode.ofBytes_toBytes (n : InnerNode) (hf : n.Fits) : InnerNode.ofBytes n.toBytes = n := by
  obtain ⟨h1, h2, h3, h4⟩ := hf
  cases n
  simp_all [InnerNode.ofBytes, InnerNode.toBytes, field_skip, field_head, field_last]

theorem InnerNode.fits_ofBytes (b : Bytes) : (InnerNode.ofBytes b).Fits :=
  ⟨field_lt _ _ _, field_lt _ _ _, field_lt _ _ _, field_lt _ _ _⟩

theorem FillEvent.length_toBytes (e : FillEvent) (h : e.padding.length = 6) : e.toBytes.length = 40 := by
  simp [FillEvent.toBytes, h]

theorem FillEvent.toBytes_ofBytes (b : Bytes) (h : b.length = 40) : (FillEvent.ofBytes b).toBytes = b := by
  simp only [FillEvent.toBytes, FillEvent.ofBytes]
  repeat rw [toLE_field _ _ _ (by omega)]
  rw [seg_last b 32 8 (by omega)]
  iterate 5 rw [seg_append]
  rfl

theorem FillEvent.ofBytes_toBytes (e : FillEvent) (hf : e.Fits) : FillEvent.ofBytes e.toBytes = e := by
  obtain ⟨h1, h2, h3, h4, h5, h6⟩ := hf
  cases e
  simp_all [FillEvent.ofBytes, FillEvent.toBytes, field_skip, field_head, field_last, slice_skip]

theorem FillEvent.fits_ofBytes (b : Bytes) (h : b.length = 40) : (FillEvent.ofBytes b).Fits :=
  ⟨field_lt _ _ _, field_lt _ _ _, by simp [FillEvent.ofBytes, h], field_lt _ _ _, field_lt _ _ _, field_lt _ _ _⟩

theorem OutEvent.length_toBytes (e : OutEvent) (h : e.padding.length = 14) : e.toBytes.length = 40 := by
  simp [OutEvent.toBytes, h]

theorem OutEvent.toBytes_ofBytes (b : Bytes) (h : b.length = 40) : (OutEvent.ofBytes b).toBytes = b := by
  simp only [OutEvent.toBytes, OutEvent.ofBytes]
  repeat rw [toLE_field _ _ _ (by omega)]
  rw [seg_last b 32 8 (by omega)]
  iterate 4 rw [seg_append]
  rfl

theorem OutEvent.ofBytes_toBytes (e : OutEvent) (hf : e.Fits) : OutEvent.ofBytes e.toBytes = e := by
  obtain ⟨h1, h2, h3, h4, h5⟩ := hf
  cases e
  simp_all [OutEvent.ofBytes, OutEvent.toBytes, field_skip, field_head, field_last, slice_skip]

theorem EventQueueHeader.length_toBytes (h : EventQueueHeader) : h.toBytes.length = 24 := by
  simp [EventQueueHeader.toBytes]

theorem EventQueueHeader.toBytes_ofBytes (b : Bytes) (h : b.length = 24) :
    (EventQueueHeader.ofBytes b).toBytes = b := by
  simp only [EventQueueHeader.toBytes, EventQueueHeader.ofBytes]
  repeat rw [toLE_field _ _ _ (by omega)]
  rw [seg_last b 16 8 (by omega)]
  iterate 2 rw [seg_append]
  rfl

theorem EventQueueHeader.ofBytes_toBytes (h : EventQueueHeader) (hf : h.Fits) :
    EventQueueHeader.ofBytes h.toBytes = h := by
  obtain ⟨h1, h2, h3⟩ := hf
  cases h
  simp_all [EventQueueHeader.ofBytes, EventQueueHeader.toBytes, field_skip, field_head, field_last]

theorem EventQueueHeader.fits_ofBytes (b : Bytes) : (EventQueueHeader.ofBytes b).Fits :=
  ⟨field_lt _ _ _, field_lt _ _ _, field_lt _ _ _⟩

theorem pubkeyAt_val (b : Bytes) (off : Nat) (h : off + 32 ≤ b.length) :
    (pubkeyAt b off).1 = (b.drop off).take 32 := by
  simp only [pubkeyAt, List.rightpad, List.length_take, List.length_drop]
  rw [show 32 - min 32 (b.length - off) = 0 by omega]
  simp

theorem pubkeyAt_head (k : Pubkey) (r : Bytes) : pubkeyAt (k.1 ++ r) 0 = k := by
  apply Subtype.ext
  have hk := k.2
  rw [pubkeyAt_val _ _ (by simp; omega), List.drop_zero, slice_head _ _ _ hk]

theorem pubkeyAt_skip (a r : Bytes) (off : Nat) (h : a.length ≤ off) :
    pubkeyAt (a ++ r) off = pubkeyAt r (off - a.length) := by
  apply Subtype.ext
  simp only [pubkeyAt]
  rw [slice_skip _ _ _ h]

theorem MarketState.length_toBytes (m : MarketState) : m.toBytes.length = 112 := by
  have h1 := m.eventQueue.2
  have h2 := m.bids.2
  have h3 := m.asks.2
  simp [MarketState.toBytes, h1, h2, h3]

theorem MarketState.toBytes_ofBytes (b : Bytes) (h : b.length = 112) : (MarketState.ofBytes b).toBytes = b := by
  simp only [MarketState.toBytes, MarketState.ofBytes]
  repeat rw [toLE_field _ _ _ (by omega)]
  repeat rw [pubkeyAt_val _ _ (by omega)]
  rw [seg_last b 104 8 (by omega)]
  iterate 4 rw [seg_append]
  rfl

theorem MarketState.ofBytes_toBytes (m : MarketState) (hf : m.Fits) : MarketState.ofBytes m.toBytes = m := by
  obtain ⟨h1, h2⟩ := hf
  have h3 := m.eventQueue.2
  have h4 := m.bids.2
  have h5 := m.asks.2
  cases m
  simp_all [MarketState.ofBytes, MarketState.toBytes, field_skip, field_head, field_last, pubkeyAt_head,
    pubkeyAt_skip]

theorem MarketState.fits_ofBytes (b : Bytes) : (MarketState.ofBytes b).Fits := ⟨field_lt _ _ _, field_lt _ _ _⟩

/-! ### Slices -/

theorem pieces_length (n k : Nat) (b : Bytes) : (pieces n k b).length = k := by
  induction k generalizing b with
  | zero => rfl
  | succ k ih => simp [pieces, ih]

theorem pieces_flatten {n k : Nat} {b : Bytes} (h : b.length = k * n) : (pieces n k b).flatten = b := by
  induction k generalizing b with
  | zero => simp at h; simp [pieces, h]
  | succ k ih =>
    simp only [pieces, List.flatten_cons]
    rw [ih (by simp [h, Nat.succ_mul]), List.take_append_drop]

theorem pieces_mem_length {n k : Nat} {b : Bytes} (h : b.length = k * n) : ∀ p ∈ pieces n k b, p.length = n := by
  induction k generalizing b with
  | zero => simp [pieces]
  | succ k ih =>
    intro p hp
    rw [Nat.succ_mul] at h
    simp only [pieces, List.mem_cons] at hp
    rcases hp with rfl | hp
    · simp; omega
    · exact ih (by simp; omega) p hp

theorem pieces_of_flatten {n : Nat} (bs : List Bytes) (h : ∀ p ∈ bs, p.length = n) :
    pieces n bs.length bs.flatten = bs := by
  induction bs with
  | nil => rfl
  | cons p bs ih =>
    have hp := h p (by simp)
    simp only [List.length_cons, pieces, List.flatten_cons]
    rw [slice_head _ _ _ hp, slice_skip _ _ _ (by omega), hp, Nat.sub_self, List.drop_zero,
      ih (fun q hq => h q (by simp [hq]))]

theorem flatten_length {α : Type} {n : Nat} (enc : α → Bytes) (xs : List α) (h : ∀ x ∈ xs, (enc x).length = n) :
    (xs.map enc).flatten.length = xs.length * n := by
  induction xs with
  | nil => simp
  | cons x xs ih =>
    simp only [List.map_cons, List.flatten_cons, List.length_append, List.length_cons]
    rw [h x (by simp), ih (fun y hy => h y (by simp [hy])), Nat.succ_mul]; omega

theorem castSlice_ok {α : Type} {n : Nat} {dec : Bytes → α} {b : Bytes} (h : b.length % n = 0) :
    castSlice n dec b = .ok ((pieces n (b.length / n) b).map dec) := by
  rw [castSlice, if_pos h]

theorem castSlice_inv {α : Type} {n : Nat} {dec : Bytes → α} {b : Bytes} {xs : List α}
    (h : castSlice n dec b = .ok xs) :
    b.length % n = 0 ∧ xs = (pieces n (b.length / n) b).map dec := by
  rw [castSlice] at h
  split at h
  · exact ⟨by assumption, (Except.ok.inj h).symm⟩
  · cases h

/-- Reading a slice and writing it back. -/
theorem castSlice_back {α : Type} {n : Nat} {dec : Bytes → α} {enc : α → Bytes} {b : Bytes} {xs : List α}
    (hed : ∀ p, p.length = n → enc (dec p) = p) (h : castSlice n dec b = .ok xs) : (xs.map enc).flatten = b := by
  obtain ⟨h1, rfl⟩ := castSlice_inv h
  have hb : b.length = b.length / n * n := by
    have := Nat.div_add_mod b.length n
    rw [h1, Nat.add_zero, Nat.mul_comm] at this; exact this.symm
  rw [List.map_map]
  have : (pieces n (b.length / n) b).map (enc ∘ dec) = pieces n (b.length / n) b := by
    conv_rhs => rw [← List.map_id (pieces n (b.length / n) b)]
    exact List.map_congr_left (fun p hp => hed p (pieces_mem_length hb p hp))
  rw [this, pieces_flatten hb]

/-- Writing a slice and reading it back. -/
theorem castSlice_flatten {α : Type} {n : Nat} (hn : 0 < n) {dec : Bytes → α} {enc : α → Bytes} (xs : List α)
    (hl : ∀ x ∈ xs, (enc x).length = n) (hde : ∀ x ∈ xs, dec (enc x) = x) :
    castSlice n dec (xs.map enc).flatten = .ok xs := by
  have hlen := flatten_length enc xs hl
  rw [castSlice_ok (by rw [hlen]; exact Nat.mul_mod_left _ _), hlen, Nat.mul_div_cancel _ hn]
  have h1 : pieces n xs.length (xs.map enc).flatten = xs.map enc := by
    have := pieces_of_flatten (n := n) (xs.map enc) (by
      intro p hp
      obtain ⟨x, hx, rfl⟩ := List.mem_map.1 hp
      exact hl x hx)
    rwa [List.length_map] at this
  rw [h1, List.map_map]
  congr 1
  conv_rhs => rw [← List.map_id xs]
  exact List.map_congr_left hde

theorem castSlice_length {α : Type} {n : Nat} {dec : Bytes → α} {b : Bytes} {xs : List α}
    (h : castSlice n dec b = .ok xs) : xs.length = b.length / n := by
  obtain ⟨_, rfl⟩ := castSlice_inv h
  rw [List.length_map, pieces_length]

theorem castSlice_forall {α : Type} {n : Nat} {dec : Bytes → α} {b : Bytes} {xs : List α} {P : α → Prop}
    (hP : ∀ p, p.length = n → P (dec p)) (h : castSlice n dec b = .ok xs) : ∀ x ∈ xs, P x := by
  obtain ⟨h1, rfl⟩ := castSlice_inv h
  have hb : b.length = b.length / n * n := by
    have := Nat.div_add_mod b.length n
    rw [h1, Nat.add_zero, Nat.mul_comm] at this; exact this.symm
  intro x hx
  obtain ⟨p, hp, rfl⟩ := List.mem_map.1 hx
  exact hP p (pieces_mem_length hb p hp)

end AOB
