import Verif.Model.Align
import Verif.Props.Layout
/-
No cast of the program is misaligned (C92).
-/
namespace AOB

theorem checkAlign_ok {base off align : Nat} (h : align ∣ base + off) : checkAlign base off align = .ok () := by
  unfold checkAlign; rw [if_pos (Nat.mod_eq_zero_of_dvd h)]

theorem Target.idAlign_eq (t : Target) : t.idAlign = 8 := by cases t <;> rfl

theorem dvd_of_eight {al base off : Nat} (h : al ∣ 8) (hb : 8 ∣ base) (ho : 8 ∣ off) : al ∣ base + off :=
  h.trans (Nat.dvd_add hb ho)

theorem readTagAt_eq {base : Nat} (hb : 8 ∣ base) (buf : Bytes) : readTagAt base buf = readTag buf := by
  unfold readTagAt readTag
  rw [checkAlign_ok (by simpa using hb)]
  rfl

/-- C92: account data starts at a multiple of 8. Then the tags can be read and written. -/
theorem C92_tag {base : Nat} (hb : 8 ∣ base) (buf : Bytes) (tag : AccountTag) :
    readTagAt base buf = readTag buf ∧ writeTagAt base buf tag = writeTag buf tag := by
  refine ⟨readTagAt_eq hb buf, ?_⟩
  unfold writeTagAt writeTag
  rw [checkAlign_ok (by simpa using hb)]
  rfl

/-- C92: reading a market does the same with and without the alignment checks. -/
theorem C92_market {base : Nat} (hb : 8 ∣ base) (buf : Bytes) (tag : AccountTag) :
    MarketState.fromBufferAt base buf tag = MarketState.fromBuffer buf tag := by
  unfold MarketState.fromBufferAt MarketState.fromBuffer
  rw [readTagAt_eq hb, checkAlign_ok (dvd_of_eight (Nat.dvd_refl 8) hb (by decide))]
  rfl

variable {C : Type} [Pod C] [HasAlign C]

/-- C92: so does reading an event queue, whatever its size, if the alignment of the callback info is at most 8. -/
theorem C92_queue (t : Target) {base : Nat} (hb : 8 ∣ base) (hC : HasAlign.align C ∣ 8) (buf : Bytes) (tag : AccountTag) :
    EventQueue.fromBufferAt C t base buf tag = EventQueue.fromBuffer C buf tag := by
  unfold EventQueue.fromBufferAt EventQueue.fromBuffer
  simp only [readTagAt_eq hb, t.idAlign_eq, EventQueueHeader.LEN, FillEvent.LEN]
  rw [checkAlign_ok (dvd_of_eight (Nat.dvd_refl 8) hb (by decide)), checkAlign_ok (dvd_of_eight (Nat.dvd_refl 8) hb (by decide))]
  congr 1; funext a; congr 1; funext a
  rw [checkAlign_ok (dvd_of_eight hC hb (by omega))]
  rfl

/-- C92: so does reading a slab, on the chain and on hosts where `u128` has alignment 8. -/
theorem C92_slab {t : Target} (ht : t ≠ .host16) {base : Nat} (hb : 8 ∣ base) (hC : HasAlign.align C ∣ 8) (buf : Bytes)
    (tag : AccountTag) : Slab.fromBufferAt C t base buf tag = Slab.fromBuffer C buf tag := by
  have hi : t.innerAlign = 8 := by cases t <;> first | rfl | exact absurd rfl ht
  unfold Slab.fromBufferAt Slab.fromBuffer
  simp only [t.idAlign_eq, hi, SlabHeader.LEN, LeafNode.LEN, InnerNode.LEN]
  rw [checkAlign_ok (dvd_of_eight (by decide) hb (by decide)), checkAlign_ok (dvd_of_eight (Nat.dvd_refl 8) hb (by decide))]
  congr 1; funext a; congr 1; funext a; congr 1; funext a
  rw [checkAlign_ok (dvd_of_eight (Nat.dvd_refl 8) hb (by omega)), checkAlign_ok (dvd_of_eight hC hb (by omega))]
  rfl

/-- C92: where `u128` has alignment 16 (`InnerNode` has a `u128` on every target, `LeafNode` has not), a slab can be read
only if the address of its account data plus 8 for each of its inner nodes is a multiple of 16; otherwise `from_buffer` panics.
With data at a multiple of 16: slabs for an even number of orders cannot be read. -/
theorem C92_host {base : Nat} (hb : 8 ∣ base) (hC : HasAlign.align C ∣ 8) {buf : Bytes} {tag : AccountTag} {s : Slab C}
    (h : Slab.fromBuffer C buf tag = .ok s) :
    Slab.fromBufferAt C .host16 base buf tag =
      if 16 ∣ base + 8 * s.innerNodes.length then .ok s else .error .panic := by
  obtain ⟨h0, b, hb0, ht⟩ := Slab.fromBuffer_ok_iff.1 h
  have hcap : (buf.length - 32 - 8 - (24 + Pod.size C)) / (24 + Pod.size C + 32) = slabCap C buf.length := by
    unfold slabCap
    rw [show buf.length - 32 - 8 - (24 + Pod.size C) = buf.length - 64 - Pod.size C by omega,
      show 24 + Pod.size C + 32 = 56 + Pod.size C by omega]
  have hlen := h0.lengths.2.1
  obtain ⟨h1, h2, h3, h4, h5⟩ := h0
  have e1 : SlabHeader.LEN = 32 := rfl
  have e2 : LeafNode.LEN = 24 := rfl
  have e3 : InnerNode.LEN = 32 := rfl
  unfold Slab.fromBufferAt
  rw [bind_of_ok (subU_ok_iff.2 ⟨by omega, rfl⟩), bind_of_ok (subU_ok_iff.2 ⟨by omega, rfl⟩),
    bind_of_ok (subU_ok_iff.2 ⟨by omega, rfl⟩), bind_of_ok (idx_ok.2 hb0), if_neg (by simp [ht])]
  simp only [e1, e2, e3, hcap, List.drop_drop, Target.idAlign_eq, show Target.innerAlign .host16 = 16 from rfl]
  rw [bind_of_ok (checkAlign_ok (dvd_of_eight (by decide) hb (by decide))),
    bind_of_ok (checkAlign_ok (dvd_of_eight (Nat.dvd_refl 8) hb (by decide))), bind_of_ok h3, hlen]
  by_cases hd : 16 ∣ base + 8 * slabCap C buf.length
  · rw [if_pos hd, bind_of_ok (checkAlign_ok (by omega)), bind_of_ok h4,
      bind_of_ok (checkAlign_ok (dvd_of_eight hC hb (by omega))), bind_of_ok h5]
    cases s
    simp_all
  · rw [if_neg hd]
    unfold checkAlign
    rw [if_neg (by omega)]
    rfl

/-- C92: the test build of the code base on such a host cannot read a slab for two orders. -/
theorem C92_host_witness : Slab.computeAllocationSize Bytes32 2 = .ok 184 ∧
    (∃ s, Slab.fromBufferAt Bytes32 .solana 1024 (130 :: List.replicate 183 0) .bids = .ok s) ∧
    Slab.fromBufferAt Bytes32 .host16 1024 (130 :: List.replicate 183 0) .bids = .error .panic := by
  refine ⟨by decide, ?_, by decide +kernel⟩
  rw [C92_slab (by decide) (by decide +kernel) (by decide +kernel)]
  obtain ⟨s, hs, -⟩ := (Layout.C42_slab (C := Bytes32) (n := 2) (by decide +kernel) (buf := 130 :: List.replicate 183 0) (t := .bids)
    (b := 130) (by decide +kernel) rfl (by decide +kernel)).2
  exact ⟨s, hs⟩

/-- At an address that is not a multiple of 8 nothing can be read. -/
theorem C92_base {base : Nat} (hb : ¬ 8 ∣ base) (buf : Bytes) (tag : AccountTag) :
    MarketState.fromBufferAt base buf tag = .error .panic := by
  unfold MarketState.fromBufferAt readTagAt checkAlign
  rw [Nat.add_zero, if_neg (fun h => hb (Nat.dvd_of_mod_eq_zero h))]
  split <;> rfl

example := C92_slab (C := Bytes32) (t := .solana) (by decide) (base := 4096) (by decide) (by decide) Layout.demoBids .bids
example := C92_queue (C := Bytes32) .solana (base := 4096) (by decide) (by decide) Layout.demoQueueAcc .eventQueue
example := C92_market (base := 4096) (by decide) (toLE 8 128 ++ List.replicate 112 0) .market
example : Slab.fromBufferAt Bytes32 .solana 4096 (Layout.demoUsed.writeBack Layout.demoBids) .bids = .ok Layout.demoUsed := by
  decide +kernel

example := C92_tag (base := 4096) (by decide) Layout.demoBids .bids
example := C92_host (C := Bytes32) (base := 4096) (by decide) (by decide) (buf := Layout.demoUsed.writeBack Layout.demoBids)
  (tag := .bids) (s := Layout.demoUsed) (by decide +kernel)
example := C92_base (base := 4097) (by decide) (toLE 8 128 ++ List.replicate 112 0) .market

end AOB
