import Verif.Proofs.LayoutLemmas
import Verif.Proofs.ResLemmas
/-
`from_buffer` and writing through the references it returns.
-/
namespace AOB
variable {C : Type} [Pod C]

/-- `capacity` of `critbit.rs` 141. -/
def slabCap (C : Type) [Pod C] (len : Nat) : Nat := (len - 64 - Pod.size C) / (56 + Pod.size C)

/-- `capacity` of `event_queue.rs` 157-158. -/
def queueCap (C : Type) [Pod C] (len : Nat) : Nat := (len - 32) / (40 + 2 * Pod.size C)

/-- The callback infos of a slab account of `len` bytes beyond one per leaf. -/
def slabSlack (C : Type) [Pod C] (len : Nat) : Nat := (len - 64 - Pod.size C) % (56 + Pod.size C)

theorem slab_len_eq {len : Nat} (h : 64 + Pod.size C ≤ len) :
    len = 40 + (slabCap C len + 1) * 24 + slabCap C len * 32 + ((slabCap C len + 1) * Pod.size C + slabSlack C len) := by
  have h1 := Nat.div_add_mod (len - 64 - Pod.size C) (56 + Pod.size C)
  unfold slabCap slabSlack
  generalize (len - 64 - Pod.size C) / (56 + Pod.size C) = q at *
  generalize (len - 64 - Pod.size C) % (56 + Pod.size C) = r at *
  rw [Nat.add_mul, Nat.mul_comm] at h1
  have : q * Pod.size C = Pod.size C * q := Nat.mul_comm _ _
  simp only [Nat.add_mul, Nat.one_mul]
  omega

theorem queue_len_eq {len : Nat} (h : 32 ≤ len) :
    len = 32 + queueCap C len * 40 +
      (2 * queueCap C len * Pod.size C + (len - 32) % (40 + 2 * Pod.size C)) := by
  have h1 := Nat.div_add_mod (len - 32) (40 + 2 * Pod.size C)
  unfold queueCap
  generalize (len - 32) / (40 + 2 * Pod.size C) = q at *
  generalize (len - 32) % (40 + 2 * Pod.size C) = r at *
  rw [Nat.add_mul, Nat.mul_assoc, Nat.mul_comm (Pod.size C) q] at h1
  rw [Nat.mul_assoc]
  omega

/-- The pieces of a slab account. -/
structure SlabParts (C : Type) [Pod C] (buf : Bytes) (s : Slab C) : Prop where
  long : 64 + Pod.size C ≤ buf.length
  header : s.header = SlabHeader.ofBytes ((buf.drop 8).take 32)
  leaves : castSlice 24 LeafNode.ofBytes ((buf.drop 40).take ((slabCap C buf.length + 1) * 24)) = .ok s.leafNodes
  inners : castSlice 32 InnerNode.ofBytes
    ((buf.drop (40 + (slabCap C buf.length + 1) * 24)).take (slabCap C buf.length * 32)) = .ok s.innerNodes
  infos : castSlice (Pod.size C) Pod.ofBytes
    (buf.drop (40 + (slabCap C buf.length + 1) * 24 + slabCap C buf.length * 32)) = .ok s.callbackInfos

theorem Slab.fromBuffer_ok_iff {buf : Bytes} {t : AccountTag} {s : Slab C} :
    Slab.fromBuffer C buf t = .ok s ↔ SlabParts C buf s ∧ ∃ b, buf[0]? = some b ∧ b.toNat = t.toNat := by
  unfold Slab.fromBuffer
  have hcap : (buf.length - 32 - 8 - (24 + Pod.size C)) / (24 + Pod.size C + 32) = slabCap C buf.length := by
    unfold slabCap
    rw [show buf.length - 32 - 8 - (24 + Pod.size C) = buf.length - 64 - Pod.size C by omega,
      show 24 + Pod.size C + 32 = 56 + Pod.size C by omega]
  constructor
  · intro h
    obtain ⟨a, ha, h⟩ := bind_ok h
    obtain ⟨ha', rfl⟩ := subU_ok_iff.1 ha
    obtain ⟨a, ha, h⟩ := bind_ok h
    obtain ⟨ha'', rfl⟩ := subU_ok_iff.1 ha
    obtain ⟨a, ha, h⟩ := bind_ok h
    obtain ⟨ha3, rfl⟩ := subU_ok_iff.1 ha
    obtain ⟨b, hb, h⟩ := bind_ok h
    rw [idx_ok] at hb
    obtain ⟨ht, h⟩ := ite_err_ok.1 h
    simp only [SlabHeader.LEN, LeafNode.LEN, InnerNode.LEN] at h ha' ha3
    simp only [hcap, List.drop_drop] at h
    obtain ⟨ls, hls, h⟩ := bind_ok h
    obtain ⟨is, his, h⟩ := bind_ok h
    obtain ⟨cs, hcs, h⟩ := bind_ok h
    obtain rfl := Except.ok.inj h
    refine ⟨⟨by omega, rfl, hls, his, hcs⟩, b, hb, ?_⟩
    exact Classical.not_not.1 ht
  · rintro ⟨⟨h1, h2, h3, h4, h5⟩, b, hb, ht⟩
    have e1 : SlabHeader.LEN = 32 := rfl
    have e2 : LeafNode.LEN = 24 := rfl
    have e3 : InnerNode.LEN = 32 := rfl
    rw [bind_of_ok (subU_ok_iff.2 ⟨by omega, rfl⟩), bind_of_ok (subU_ok_iff.2 ⟨by omega, rfl⟩),
      bind_of_ok (subU_ok_iff.2 ⟨by omega, rfl⟩), bind_of_ok (idx_ok.2 hb)]
    rw [ite_err_ok]
    refine ⟨by simp [ht], ?_⟩
    simp only [e1, e2, e3, hcap, List.drop_drop]
    rw [bind_of_ok h3, bind_of_ok h4, bind_of_ok h5]
    cases s
    simp_all

theorem SlabParts.lengths {buf : Bytes} {s : Slab C} (h : SlabParts C buf s) :
    s.leafNodes.length = slabCap C buf.length + 1 ∧ s.innerNodes.length = slabCap C buf.length ∧
    slabSlack C buf.length % Pod.size C = 0 ∧
    s.callbackInfos.length = slabCap C buf.length + 1 + slabSlack C buf.length / Pod.size C := by
  have hl := slab_len_eq (C := C) h.long
  have hp : 0 < Pod.size C := Pod.size_pos
  have h1 := castSlice_length h.leaves
  have h2 := castSlice_length h.inners
  have h3 := castSlice_length h.infos
  obtain ⟨h4, -⟩ := castSlice_inv h.infos
  generalize slabCap C buf.length = q at *
  generalize slabSlack C buf.length = r at *
  have hr : (buf.drop (40 + (q + 1) * 24 + q * 32)).length = (q + 1) * Pod.size C + r := by
    rw [List.length_drop]; omega
  rw [hr] at h3 h4
  refine ⟨?_, ?_, ?_, ?_⟩
  · rw [h1, List.length_take, List.length_drop, Nat.min_eq_left (by omega), Nat.mul_div_cancel _ (by decide)]
  · rw [h2, List.length_take, List.length_drop, Nat.min_eq_left (by omega), Nat.mul_div_cancel _ (by decide)]
  · rwa [Nat.mul_add_mod'] at h4
  · rw [h3, Nat.mul_comm, Nat.mul_add_div hp]

theorem SlabParts.fits {buf : Bytes} {s : Slab C} (h : SlabParts C buf s) : s.Fits :=
  ⟨h.header ▸ SlabHeader.fits_ofBytes _, castSlice_forall (fun _ _ => LeafNode.fits_ofBytes _) h.leaves,
    castSlice_forall (fun _ _ => InnerNode.fits_ofBytes _) h.inners⟩

/-- Writing back what was read changes nothing. -/
theorem SlabParts.writeBack {buf : Bytes} {s : Slab C} (h : SlabParts C buf s) : s.writeBack buf = buf := by
  unfold Slab.writeBack
  have hl := h.long
  have h1 := castSlice_back LeafNode.toBytes_ofBytes h.leaves
  have h2 := castSlice_back InnerNode.toBytes_ofBytes h.inners
  have h3 := castSlice_back Pod.toBytes_ofBytes h.infos
  rw [h1, h2, h3, h.header, SlabHeader.toBytes_ofBytes _ (by simp; omega)]
  rw [seg_append, seg_append, seg_append, List.take_append_drop]

/-- The same shape: equally many leaf nodes, inner nodes and callback infos. -/
def Slab.SameShape {C : Type} (s s' : Slab C) : Prop :=
  s'.leafNodes.length = s.leafNodes.length ∧ s'.innerNodes.length = s.innerNodes.length ∧
  s'.callbackInfos.length = s.callbackInfos.length

theorem SlabParts.length_writeBack {buf : Bytes} {s s' : Slab C} (h : SlabParts C buf s) (hs : s.SameShape s') :
    (s'.writeBack buf).length = buf.length := by
  have hl := slab_len_eq (C := C) h.long
  obtain ⟨h1, h2, h3, h4⟩ := h.lengths
  obtain ⟨g1, g2, g3⟩ := hs
  unfold Slab.writeBack
  have hlong := h.long
  have hp : 0 < Pod.size C := Pod.size_pos
  have e1 := flatten_length LeafNode.toBytes s'.leafNodes (fun x _ => LeafNode.length_toBytes x)
  have e2 := flatten_length InnerNode.toBytes s'.innerNodes (fun x _ => InnerNode.length_toBytes x)
  have e3 := flatten_length (Pod.toBytes (C := C)) s'.callbackInfos (fun x _ => Pod.length_toBytes x)
  simp only [List.length_append, SlabHeader.length_toBytes, e1, e2, e3, List.length_take]
  rw [g1, g2, g3, h1, h2, h4, Nat.add_mul _ _ (Pod.size C),
    Nat.div_mul_cancel (Nat.dvd_of_mod_eq_zero h3)]
  generalize slabCap C buf.length = q at *
  generalize slabSlack C buf.length = r at *
  omega

/-- Writing a slab of the same shape and reading it again gives that slab. -/
theorem SlabParts.read_write {buf : Bytes} {s s' : Slab C} (h : SlabParts C buf s) (hs : s.SameShape s')
    (hf : s'.Fits) : SlabParts C (s'.writeBack buf) s' := by
  have hlen := h.length_writeBack hs
  have hlong := h.long
  obtain ⟨h1, h2, h3, h4⟩ := h.lengths
  obtain ⟨g1, g2, g3⟩ := hs
  obtain ⟨f1, f2, f3⟩ := hf
  have hp : 0 < Pod.size C := Pod.size_pos
  have e1 := flatten_length LeafNode.toBytes s'.leafNodes (fun x _ => LeafNode.length_toBytes x)
  have e2 := flatten_length InnerNode.toBytes s'.innerNodes (fun x _ => InnerNode.length_toBytes x)
  rw [g1, h1] at e1
  rw [g2, h2] at e2
  have e0 : (buf.take 8).length = 8 := by simp; omega
  have e4 := SlabHeader.length_toBytes s'.header
  refine ⟨by omega, ?_, ?_, ?_, ?_⟩
  · unfold Slab.writeBack
    rw [slice_skip _ _ _ (by omega), e0, Nat.sub_self, List.drop_zero, slice_head _ _ _ e4,
      SlabHeader.ofBytes_toBytes _ f1]
  · rw [hlen]
    unfold Slab.writeBack
    rw [slice_skip _ _ _ (by omega), slice_skip _ _ _ (by omega), e0, e4, List.drop_zero, slice_head _ _ _ e1]
    exact castSlice_flatten (by decide) _ (fun x _ => LeafNode.length_toBytes x)
      (fun x hx => LeafNode.ofBytes_toBytes x (f2 x hx))
  · rw [hlen]
    unfold Slab.writeBack
    rw [slice_skip _ _ _ (by omega), slice_skip _ _ _ (by omega), slice_skip _ _ _ (by omega), e0, e4, e1,
      show 40 + (slabCap C buf.length + 1) * 24 - 8 - 32 - (slabCap C buf.length + 1) * 24 = 0 by omega,
      List.drop_zero, slice_head _ _ _ e2]
    exact castSlice_flatten (by decide) _ (fun x _ => InnerNode.length_toBytes x)
      (fun x hx => InnerNode.ofBytes_toBytes x (f3 x hx))
  · rw [hlen]
    unfold Slab.writeBack
    rw [slice_skip _ _ _ (by omega), slice_skip _ _ _ (by omega), slice_skip _ _ _ (by omega),
      slice_skip _ _ _ (by omega), e0, e4, e1, e2,
      show 40 + (slabCap C buf.length + 1) * 24 + slabCap C buf.length * 32 - 8 - 32
        - (slabCap C buf.length + 1) * 24 - slabCap C buf.length * 32 = 0 by omega, List.drop_zero]
    exact castSlice_flatten hp _ (fun x _ => Pod.length_toBytes x) (fun x _ => Pod.ofBytes_toBytes x)

theorem Slab.writeBack_tag {buf : Bytes} (s : Slab C) (h : 8 ≤ buf.length) :
    (s.writeBack buf)[0]? = buf[0]? := by
  unfold Slab.writeBack
  rw [List.getElem?_append_left (by simp; omega), List.getElem?_take_of_lt (by omega)]

/-! ### Event queue -/

/-- The pieces of an event queue account. -/
structure QueueParts (C : Type) [Pod C] (buf : Bytes) (q : EventQueue C) : Prop where
  long : 32 ≤ buf.length
  header : q.header = EventQueueHeader.ofBytes ((buf.drop 8).take 24)
  events : castSlice 40 FillEvent.ofBytes ((buf.drop 32).take (queueCap C buf.length * 40)) = .ok q.events
  infos : castSlice (Pod.size C) Pod.ofBytes (buf.drop (32 + queueCap C buf.length * 40)) = .ok q.callbackInfos

theorem EventQueue.fromBuffer_ok_iff {buf buf' : Bytes} {t : AccountTag} {q : EventQueue C} :
    EventQueue.fromBuffer C buf t = .ok (q, buf') ↔
      QueueParts C buf q ∧ field buf 0 8 = t.toNat ∧ buf' = toLE 8 AccountTag.eventQueue.toNat ++ buf.drop 8 := by
  unfold EventQueue.fromBuffer
  have hskip : ∀ n, 8 ≤ n → (toLE 8 AccountTag.eventQueue.toNat ++ buf.drop 8).drop n = buf.drop n := by
    intro n hn
    rw [slice_skip _ _ _ (by simpa using hn), List.drop_drop, toLE_length]
    congr 1; omega
  have hcap : (buf.length - 8 - 24) / (40 + 2 * Pod.size C) = queueCap C buf.length := by
    unfold queueCap
    rw [show buf.length - 8 - 24 = buf.length - 32 by omega]
  have e1 : FillEvent.LEN = 40 := rfl
  have e2 : EventQueueHeader.LEN = 24 := rfl
  constructor
  · intro h
    obtain ⟨a, ha, h⟩ := bind_ok h
    obtain ⟨ha', rfl⟩ := subU_ok_iff.1 ha
    obtain ⟨a, ha, h⟩ := bind_ok h
    obtain ⟨ha'', rfl⟩ := subU_ok_iff.1 ha
    obtain ⟨tg, htg, h⟩ := bind_ok h
    rw [readTag, if_pos ha'] at htg
    obtain rfl := Except.ok.inj htg
    obtain ⟨ht, h⟩ := ite_err_ok.1 h
    rw [writeTag, if_pos ha'] at h
    replace h := (bind_of_ok rfl).symm.trans h
    simp only [e1, e2, hcap, List.drop_drop, Nat.reduceAdd] at h
    rw [hskip 8 (by omega), hskip 32 (by omega), hskip _ (by omega)] at h
    obtain ⟨es, hes, h⟩ := bind_ok h
    obtain ⟨cs, hcs, h⟩ := bind_ok h
    obtain ⟨rfl, rfl⟩ := Prod.mk.inj (Except.ok.inj h)
    exact ⟨⟨by omega, rfl, hes, hcs⟩, Classical.not_not.1 ht, rfl⟩
  · rintro ⟨⟨h1, h2, h3, h4⟩, ht, rfl⟩
    rw [bind_of_ok (subU_ok_iff.2 ⟨by omega, rfl⟩), bind_of_ok (subU_ok_iff.2 ⟨by omega, rfl⟩), readTag,
      if_pos (by omega), bind_of_ok rfl, ite_err_ok]
    refine ⟨by simp [ht], ?_⟩
    rw [writeTag, if_pos (by omega), bind_of_ok rfl]
    simp only [e1, e2, hcap, List.drop_drop, Nat.reduceAdd]
    rw [hskip 8 (by omega), hskip 32 (by omega), hskip _ (by omega), bind_of_ok h3, bind_of_ok h4]
    cases q
    simp_all

/-- Callback infos of a queue account beyond two per event, in bytes. -/
def queueSlack (C : Type) [Pod C] (len : Nat) : Nat := (len - 32) % (40 + 2 * Pod.size C)

theorem QueueParts.lengths {buf : Bytes} {q : EventQueue C} (h : QueueParts C buf q) :
    q.events.length = queueCap C buf.length ∧ queueSlack C buf.length % Pod.size C = 0 ∧
    q.callbackInfos.length = 2 * queueCap C buf.length + queueSlack C buf.length / Pod.size C := by
  have hl := queue_len_eq (C := C) h.long
  have hp : 0 < Pod.size C := Pod.size_pos
  have h1 := castSlice_length h.events
  have h3 := castSlice_length h.infos
  obtain ⟨h4, -⟩ := castSlice_inv h.infos
  unfold queueSlack
  generalize queueCap C buf.length = k at *
  generalize (buf.length - 32) % (40 + 2 * Pod.size C) = r at *
  have hr : (buf.drop (32 + k * 40)).length = 2 * k * Pod.size C + r := by
    rw [List.length_drop]; omega
  rw [hr] at h3 h4
  refine ⟨?_, ?_, ?_⟩
  · rw [h1, List.length_take, List.length_drop, Nat.min_eq_left (by omega), Nat.mul_div_cancel _ (by decide)]
  · rwa [Nat.mul_add_mod'] at h4
  · rw [h3, Nat.mul_comm (2 * k), Nat.mul_add_div hp]

theorem QueueParts.fits {buf : Bytes} {q : EventQueue C} (h : QueueParts C buf q) : q.Fits :=
  ⟨h.header ▸ EventQueueHeader.fits_ofBytes _, castSlice_forall (fun _ hp => FillEvent.fits_ofBytes _ hp) h.events⟩

theorem QueueParts.writeBack {buf : Bytes} {q : EventQueue C} (h : QueueParts C buf q) : q.writeBack buf = buf := by
  unfold EventQueue.writeBack
  have hl := h.long
  have h1 := castSlice_back FillEvent.toBytes_ofBytes h.events
  have h3 := castSlice_back Pod.toBytes_ofBytes h.infos
  rw [h1, h3, h.header, EventQueueHeader.toBytes_ofBytes _ (by simp; omega)]
  rw [seg_append, seg_append, List.take_append_drop]

def EventQueue.SameShape {C : Type} (q q' : EventQueue C) : Prop :=
  q'.events.length = q.events.length ∧ q'.callbackInfos.length = q.callbackInfos.length

theorem QueueParts.length_writeBack {buf : Bytes} {q q' : EventQueue C} (h : QueueParts C buf q)
    (hs : q.SameShape q') (hf : q'.Fits) : (q'.writeBack buf).length = buf.length := by
  have hl := queue_len_eq (C := C) h.long
  obtain ⟨h1, h3, h4⟩ := h.lengths
  obtain ⟨g1, g3⟩ := hs
  unfold EventQueue.writeBack
  have hlong := h.long
  have e1 := flatten_length FillEvent.toBytes q'.events
    (fun x hx => FillEvent.length_toBytes x (hf.2 x hx).2.2.1)
  have e3 := flatten_length (Pod.toBytes (C := C)) q'.callbackInfos (fun x _ => Pod.length_toBytes x)
  simp only [List.length_append, EventQueueHeader.length_toBytes, e1, e3, List.length_take]
  rw [g1, g3, h1, h4, Nat.add_mul _ _ (Pod.size C), Nat.div_mul_cancel (Nat.dvd_of_mod_eq_zero h3)]
  unfold queueSlack
  generalize queueCap C buf.length = k at *
  generalize (buf.length - 32) % (40 + 2 * Pod.size C) = r at *
  omega

theorem QueueParts.read_write {buf : Bytes} {q q' : EventQueue C} (h : QueueParts C buf q) (hs : q.SameShape q')
    (hf : q'.Fits) : QueueParts C (q'.writeBack buf) q' := by
  have hlen := h.length_writeBack hs hf
  have hlong := h.long
  obtain ⟨h1, h3, h4⟩ := h.lengths
  obtain ⟨g1, g3⟩ := hs
  obtain ⟨f1, f2⟩ := hf
  have hp : 0 < Pod.size C := Pod.size_pos
  have e1 := flatten_length FillEvent.toBytes q'.events
    (fun x hx => FillEvent.length_toBytes x (f2 x hx).2.2.1)
  rw [g1, h1] at e1
  have e0 : (buf.take 8).length = 8 := by simp; omega
  have e4 := EventQueueHeader.length_toBytes q'.header
  refine ⟨by omega, ?_, ?_, ?_⟩
  · unfold EventQueue.writeBack
    rw [slice_skip _ _ _ (by omega), e0, Nat.sub_self, List.drop_zero, slice_head _ _ _ e4,
      EventQueueHeader.ofBytes_toBytes _ f1]
  · rw [hlen]
    unfold EventQueue.writeBack
    rw [slice_skip _ _ _ (by omega), slice_skip _ _ _ (by omega), e0, e4, List.drop_zero, slice_head _ _ _ e1]
    exact castSlice_flatten (by decide) _ (fun x hx => FillEvent.length_toBytes x (f2 x hx).2.2.1)
      (fun x hx => FillEvent.ofBytes_toBytes x (f2 x hx))
  · rw [hlen]
    unfold EventQueue.writeBack
    rw [slice_skip _ _ _ (by omega), slice_skip _ _ _ (by omega), slice_skip _ _ _ (by omega), e0, e4, e1,
      show 32 + queueCap C buf.length * 40 - 8 - 24 - queueCap C buf.length * 40 = 0 by omega, List.drop_zero]
    exact castSlice_flatten hp _ (fun x _ => Pod.length_toBytes x) (fun x _ => Pod.ofBytes_toBytes x)

theorem field_take (b : Bytes) (n : Nat) : field (b.take n) 0 n = field b 0 n := by
  unfold field; rw [List.drop_zero, List.drop_zero, List.take_take, Nat.min_self]

theorem EventQueue.writeBack_tag {buf : Bytes} (q : EventQueue C) (h : 8 ≤ buf.length) :
    field (q.writeBack buf) 0 8 = field buf 0 8 := by
  unfold EventQueue.writeBack
  rw [← field_take, List.take_append_of_le_length (by simp; omega), List.take_take, Nat.min_self, field_take]

theorem writeTag_same {buf : Bytes} {t : AccountTag} (h : 8 ≤ buf.length) (ht : field buf 0 8 = t.toNat) :
    toLE 8 t.toNat ++ buf.drop 8 = buf := by
  rw [← ht, toLE_field _ _ _ (by omega), List.drop_zero, List.take_append_drop]

end AOB

namespace AOB
variable {C : Type} [Pod C]

/-! ### Market state -/

theorem MarketState.fromBuffer_ok_iff {buf buf' : Bytes} {t : AccountTag} {m : MarketState} :
    MarketState.fromBuffer buf t = .ok (m, buf') ↔ buf.length = 120 ∧ field buf 0 8 = t.toNat ∧
      m = MarketState.ofBytes (buf.drop 8) ∧ buf' = toLE 8 AccountTag.market.toNat ++ buf.drop 8 := by
  unfold MarketState.fromBuffer
  have hskip : (toLE 8 AccountTag.market.toNat ++ buf.drop 8).drop 8 = buf.drop 8 := by
    rw [slice_skip _ _ _ (by simp), toLE_length, Nat.sub_self, List.drop_zero]
  have e1 : MarketState.LEN = 112 := rfl
  constructor
  · intro h
    obtain ⟨tg, htg, h⟩ := bind_ok h
    rw [readTag] at htg
    split at htg <;> rename_i h8 <;> [skip; cases htg]
    obtain rfl := Except.ok.inj htg
    obtain ⟨ht, h⟩ := ite_err_ok.1 h
    rw [writeTag, if_pos h8] at h
    replace h := (bind_of_ok rfl).symm.trans h
    obtain ⟨hl, h⟩ := ite_err_ok.1 h
    rw [hskip] at hl h
    obtain ⟨rfl, rfl⟩ := Prod.mk.inj (Except.ok.inj h)
    rw [List.length_drop, e1] at hl
    exact ⟨by omega, Classical.not_not.1 ht, rfl, rfl⟩
  · rintro ⟨hl, ht, rfl, rfl⟩
    rw [readTag, if_pos (by omega), bind_of_ok rfl, ite_err_ok]
    refine ⟨by simp [ht], ?_⟩
    rw [writeTag, if_pos (by omega), bind_of_ok rfl, ite_err_ok, hskip]
    refine ⟨?_, rfl⟩
    rw [List.length_drop, e1]; omega

/-! ### Zero bytes -/

theorem ofLE_zeros (n : Nat) : ofLE (List.replicate n 0) = 0 := by
  induction n with
  | zero => rfl
  | succ n ih => simp [List.replicate_succ, ofLE, ih]

theorem field_zeros (k off n : Nat) : field (List.replicate k 0) off n = 0 := by
  simp [field, ofLE_zeros]

theorem pieces_zeros (n k m : Nat) (h : m = k * n) :
    pieces n k (List.replicate m 0) = List.replicate k (List.replicate n 0) := by
  induction k generalizing m with
  | zero => rfl
  | succ k ih =>
    rw [Nat.succ_mul] at h
    rw [pieces, List.replicate_succ, List.take_replicate, List.drop_replicate, ih _ (by omega),
      Nat.min_eq_left (by omega)]

theorem castSlice_zeros {α : Type} {n : Nat} (hn : 0 < n) (dec : Bytes → α) {k m : Nat} (h : m = k * n) :
    castSlice n dec (List.replicate m 0) = .ok (List.replicate k (dec (List.replicate n 0))) := by
  rw [castSlice_ok (by rw [List.length_replicate, h]; exact Nat.mul_mod_left _ _), List.length_replicate]
  have hk : m / n = k := by rw [h]; exact Nat.mul_div_cancel _ hn
  rw [hk, pieces_zeros n k m h, List.map_replicate]

/-- A slab account whose bytes after the tag are zero. -/
theorem slabParts_zeros {buf : Bytes} (hlong : 64 + Pod.size C ≤ buf.length)
    (hz : buf.drop 8 = List.replicate (buf.length - 8) 0) (hs : slabSlack C buf.length % Pod.size C = 0) :
    SlabParts C buf (Slab.zeroed (slabCap C buf.length) (Pod.ofBytes (List.replicate (Pod.size C) 0))
      (slabSlack C buf.length / Pod.size C)) := by
  have hl := slab_len_eq (C := C) hlong
  have hd : ∀ n, 8 ≤ n → buf.drop n = List.replicate (buf.length - n) 0 := by
    intro n hn
    have := congrArg (List.drop (n - 8)) hz
    rw [List.drop_drop, List.drop_replicate, show 8 + (n - 8) = n by omega,
      show buf.length - 8 - (n - 8) = buf.length - n by omega] at this
    exact this
  refine ⟨hlong, ?_, ?_, ?_, ?_⟩
  · rw [hd 8 (by omega), List.take_replicate]
    simp [Slab.zeroed, SlabHeader.ofBytes, field_zeros]
  · rw [hd 40 (by omega), List.take_replicate,
      castSlice_zeros (by decide) _ (k := slabCap C buf.length + 1) (by omega)]
    rfl
  · rw [hd _ (by omega), List.take_replicate,
      castSlice_zeros (by decide) _ (k := slabCap C buf.length) (by omega)]
    rfl
  · rw [hd _ (by omega), castSlice_zeros Pod.size_pos _
      (k := slabCap C buf.length + 1 + slabSlack C buf.length / Pod.size C)]
    · rfl
    · rw [Nat.add_mul _ _ (Pod.size C), Nat.div_mul_cancel (Nat.dvd_of_mod_eq_zero hs)]
      omega

/-- An event queue account of an exact size whose bytes after the tag are zero. -/
theorem queueParts_zeros {buf : Bytes} (hlong : 32 ≤ buf.length)
    (hz : buf.drop 8 = List.replicate (buf.length - 8) 0) (hs : queueSlack C buf.length = 0) :
    QueueParts C buf (EventQueue.zeroed (queueCap C buf.length) (Pod.ofBytes (List.replicate (Pod.size C) 0))) := by
  have hl := queue_len_eq (C := C) hlong
  unfold queueSlack at hs
  rw [hs, Nat.add_zero] at hl
  have hd : ∀ n, 8 ≤ n → buf.drop n = List.replicate (buf.length - n) 0 := by
    intro n hn
    have := congrArg (List.drop (n - 8)) hz
    rw [List.drop_drop, List.drop_replicate, show 8 + (n - 8) = n by omega,
      show buf.length - 8 - (n - 8) = buf.length - n by omega] at this
    exact this
  refine ⟨hlong, ?_, ?_, ?_⟩
  · rw [hd 8 (by omega), List.take_replicate]
    simp [EventQueue.zeroed, EventQueueHeader.ofBytes, field_zeros]
  · rw [hd 32 (by omega), List.take_replicate,
      castSlice_zeros (by decide) _ (k := queueCap C buf.length) (by omega)]
    rfl
  · rw [hd _ (by omega), castSlice_zeros Pod.size_pos _ (k := 2 * queueCap C buf.length)]
    · rfl
    · omega

theorem slabCap_alloc (n : Nat) (h : 1 ≤ n) :
    slabCap C (40 + n * 24 + (n - 1) * 32 + n * Pod.size C) = n - 1 ∧
    slabSlack C (40 + n * 24 + (n - 1) * 32 + n * Pod.size C) = 0 := by
  obtain ⟨k, rfl⟩ : ∃ k, n = k + 1 := ⟨n - 1, by omega⟩
  have : 40 + (k + 1) * 24 + (k + 1 - 1) * 32 + (k + 1) * Pod.size C - 64 - Pod.size C = (56 + Pod.size C) * k := by
    rw [Nat.add_mul 56, Nat.add_mul k 1 (Pod.size C), Nat.mul_comm (Pod.size C) k]; omega
  unfold slabCap slabSlack
  rw [this]
  exact ⟨by rw [Nat.mul_div_cancel_left _ (by omega)]; rfl, Nat.mul_mod_right _ _⟩

theorem queueCap_alloc (n : Nat) :
    queueCap C (32 + n * 40 + 2 * n * Pod.size C) = n ∧ queueSlack C (32 + n * 40 + 2 * n * Pod.size C) = 0 := by
  have : 32 + n * 40 + 2 * n * Pod.size C - 32 = (40 + 2 * Pod.size C) * n := by
    rw [Nat.add_mul 40, Nat.mul_assoc 2 n, Nat.mul_comm n (Pod.size C), Nat.mul_assoc]; omega
  unfold queueCap queueSlack
  rw [this]
  exact ⟨Nat.mul_div_cancel_left _ (by omega), Nat.mul_mod_right _ _⟩

end AOB
