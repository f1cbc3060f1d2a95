import Verif.Proofs.BufferLemmas
import Verif.Props.SlabMap
/-
Account bytes: sizes, round trips, the shared event slot.
-/
namespace AOB
namespace Layout
variable {C : Type} [Pod C]

/-! ### C42: allocation sizes -/

/-- C42. A slab account of `compute_allocation_size(n)` bytes splits, without leftover, into the tag, the header,
`n` leaves, `n - 1` inner nodes and `n` callback infos. -/
theorem C42_slab {n : Nat} (hn : 1 ≤ n) {buf : Bytes} {t : AccountTag} {b : UInt8}
    (hl : Slab.computeAllocationSize C n = .ok buf.length) (hb : buf[0]? = some b) (ht : b.toNat = t.toNat) :
    buf.length = 8 + 32 + n * 24 + (n - 1) * 32 + n * Pod.size C ∧
    ∃ s : Slab C, Slab.fromBuffer C buf t = .ok s ∧ s.leafNodes.length = n ∧ s.innerNodes.length = n - 1 ∧
      s.callbackInfos.length = n := by
  have hlen : buf.length = 40 + n * 24 + (n - 1) * 32 + n * Pod.size C := by
    unfold Slab.computeAllocationSize at hl
    obtain ⟨k, hk, hl⟩ := bind_ok hl
    obtain ⟨-, rfl⟩ := subU_ok_iff.1 hk
    have := (Except.ok.inj hl).symm
    rw [this]
    obtain ⟨k, rfl⟩ : ∃ k, n = k + 1 := ⟨n - 1, by omega⟩
    simp only [SlabHeader.LEN, LeafNode.LEN, InnerNode.LEN, Nat.add_sub_cancel, Nat.mul_add, Nat.add_mul]
    omega
  obtain ⟨h1, h2⟩ := slabCap_alloc (C := C) n hn
  rw [← hlen] at h1 h2
  have hp := Pod.size_pos (C := C)
  have hlong : 64 + Pod.size C ≤ buf.length := by
    have := slab_len_eq (C := C) (len := 64 + Pod.size C) (Nat.le_refl _)
    have : 1 * Pod.size C ≤ n * Pod.size C := Nat.mul_le_mul_right _ hn
    omega
  have hl' := slab_len_eq (C := C) hlong
  rw [h1, h2, show n - 1 + 1 = n by omega] at hl'
  refine ⟨by omega, ⟨_, _, _, _⟩, Slab.fromBuffer_ok_iff.2 ⟨⟨hlong, rfl, castSlice_ok ?_, castSlice_ok ?_,
    castSlice_ok ?_⟩, b, hb, ht⟩, ?_, ?_, ?_⟩
  · rw [h1, List.length_take, List.length_drop, Nat.min_eq_left (by omega)]; exact Nat.mul_mod_left _ _
  · rw [h1, List.length_take, List.length_drop, Nat.min_eq_left (by omega)]; exact Nat.mul_mod_left _ _
  · rw [h1, List.length_drop, show buf.length - (40 + (n - 1 + 1) * 24 + (n - 1) * 32) = n * Pod.size C by omega]
    exact Nat.mul_mod_left _ _
  · simp only [List.length_map, pieces_length]
    rw [h1, List.length_take, List.length_drop, Nat.min_eq_left (by omega), Nat.mul_div_cancel _ (by decide)]
    omega
  · simp only [List.length_map, pieces_length]
    rw [h1, List.length_take, List.length_drop, Nat.min_eq_left (by omega), Nat.mul_div_cancel _ (by decide)]
  · simp only [List.length_map, pieces_length]
    rw [h1, List.length_drop, show buf.length - (40 + (n - 1 + 1) * 24 + (n - 1) * 32) = n * Pod.size C by omega,
      Nat.mul_div_cancel _ hp]

/-- C42. The slab read from a fresh (zero but for the tag) account of that size is the empty slab of `n` orders, the
one `C32_capacity` says accepts exactly `n` keys. -/
theorem C42_slab_capacity [CallbackInfo C] {n : Nat} (hn : 1 ≤ n) (hn' : n ≤ 2 ^ 31) {buf : Bytes} {t : AccountTag}
    {b : UInt8} (hl : Slab.computeAllocationSize C n = .ok buf.length) (hb : buf[0]? = some b)
    (ht : b.toNat = t.toNat) (hz : buf.drop 8 = List.replicate (buf.length - 8) 0) :
    ∃ (s : Slab C) (c0 : C), Slab.fromBuffer C buf t = .ok s ∧ SReach (n - 1) c0 [] s := by
  obtain ⟨hlen, s, hs, -⟩ := C42_slab (C := C) hn hl hb ht
  obtain ⟨h1, h2⟩ := slabCap_alloc (C := C) n hn
  rw [show 40 + n * 24 + (n - 1) * 32 + n * Pod.size C = buf.length by omega] at h1 h2
  have hp := (Slab.fromBuffer_ok_iff.1 hs).1
  have hz' := slabParts_zeros (C := C) hp.long hz (by rw [h2]; exact Nat.zero_mod _)
  rw [h1, h2, Nat.zero_div] at hz'
  exact ⟨_, _, Slab.fromBuffer_ok_iff.2 ⟨hz', b, hb, ht⟩, by omega, by simp, rfl⟩

/-- C42. An event queue account of `compute_allocation_size(n)` bytes splits, without leftover, into the tag, the
header, `n` events and `2 n` callback infos; the size check accepts it exactly when `n ≥ 5`. -/
theorem C42_queue {n : Nat} {buf : Bytes} {t : AccountTag}
    (hl : buf.length = EventQueue.computeAllocationSize C n) (ht : field buf 0 8 = t.toNat) :
    buf.length = 8 + 24 + n * 40 + 2 * n * Pod.size C ∧
    (EventQueue.checkBufferSize C buf = .ok () ↔ 5 ≤ n) ∧
    ∃ (q : EventQueue C) (buf' : Bytes), EventQueue.fromBuffer C buf t = .ok (q, buf') ∧ q.events.length = n ∧
      q.callbackInfos.length = 2 * n := by
  have hlen : buf.length = 32 + n * 40 + 2 * n * Pod.size C := by
    rw [hl]
    unfold EventQueue.computeAllocationSize
    simp only [FillEvent.LEN, EventQueueHeader.LEN, Nat.mul_add]
    rw [Nat.mul_left_comm n 2, ← Nat.mul_assoc 2]; omega
  obtain ⟨h1, h2⟩ := queueCap_alloc (C := C) n
  rw [← hlen] at h1 h2
  have hp := Pod.size_pos (C := C)
  refine ⟨by omega, ?_, ⟨_, _, _⟩, _, EventQueue.fromBuffer_ok_iff.2 ⟨⟨by omega, rfl, castSlice_ok ?_, castSlice_ok ?_⟩,
    ht, rfl⟩, ?_, ?_⟩
  · have e1 : FillEvent.LEN = 40 := rfl
    have e2 : EventQueueHeader.LEN = 24 := rfl
    have hdist : buf.length = 32 + n * (40 + 2 * Pod.size C) := by
      rw [hlen, Nat.mul_add, Nat.mul_left_comm n 2, ← Nat.mul_assoc 2]; omega
    unfold EventQueue.checkBufferSize
    simp only []
    rw [ite_err_ok, ite_err_ok, e1, e2]
    unfold queueSlack at h2
    have h3 : (buf.length - (24 + 8)) % (40 + 2 * Pod.size C) = 0 := h2
    constructor
    · rintro ⟨h, -⟩
      refine Nat.le_of_not_lt (fun hlt => h ?_)
      have : n * (40 + 2 * Pod.size C) < 5 * (40 + 2 * Pod.size C) := Nat.mul_lt_mul_of_pos_right hlt (by omega)
      omega
    · intro h
      have : 5 * (40 + 2 * Pod.size C) ≤ n * (40 + 2 * Pod.size C) := Nat.mul_le_mul_right _ h
      refine ⟨by omega, ?_, rfl⟩
      simp [h3]
  · rw [h1, List.length_take, List.length_drop, Nat.min_eq_left (by omega)]; exact Nat.mul_mod_left _ _
  · rw [h1, List.length_drop, show buf.length - (32 + n * 40) = 2 * n * Pod.size C by omega]
    exact Nat.mul_mod_left _ _
  · simp only [List.length_map, pieces_length]
    rw [h1, List.length_take, List.length_drop, Nat.min_eq_left (by omega), Nat.mul_div_cancel _ (by decide)]
  · simp only [List.length_map, pieces_length]
    rw [h1, List.length_drop, show buf.length - (32 + n * 40) = 2 * n * Pod.size C by omega,
      Nat.mul_div_cancel _ hp]

/-- C42. The size check accepts no other size: an accepted account has the allocation size of some `n ≥ 5`. -/
theorem C42_queue_check {buf : Bytes} (h : EventQueue.checkBufferSize C buf = .ok ()) :
    ∃ n, 5 ≤ n ∧ buf.length = EventQueue.computeAllocationSize C n := by
  have e1 : FillEvent.LEN = 40 := rfl
  have e2 : EventQueueHeader.LEN = 24 := rfl
  unfold EventQueue.checkBufferSize at h
  simp only [] at h
  rw [ite_err_ok, ite_err_ok, e1, e2] at h
  obtain ⟨h1, h2, -⟩ := h
  have h3 := Nat.div_add_mod (buf.length - (24 + 8)) (40 + 2 * Pod.size C)
  rw [Classical.not_not.1 h2, Nat.add_zero] at h3
  refine ⟨(buf.length - (24 + 8)) / (40 + 2 * Pod.size C), ?_, ?_⟩
  · rw [Nat.le_div_iff_mul_le (by omega)]; omega
  · unfold EventQueue.computeAllocationSize
    rw [e1, e2, Nat.mul_comm, h3]; omega

/-! ### C43: round trips -/

/-- C43. Reading a slab and writing it back leaves the account as it was; what was read is in range. -/
theorem C43_slab_read_write {buf : Bytes} {t : AccountTag} {s : Slab C} (h : Slab.fromBuffer C buf t = .ok s) :
    s.writeBack buf = buf ∧ s.Fits := by
  have hp := (Slab.fromBuffer_ok_iff.1 h).1
  exact ⟨hp.writeBack, hp.fits⟩

/-- C43. Writing any slab with as many nodes and infos, all fields in range, keeps the size and tag of the account,
and reading it gives back that slab. -/
theorem C43_slab_write_read {buf : Bytes} {t : AccountTag} {s s' : Slab C} (h : Slab.fromBuffer C buf t = .ok s)
    (h1 : s'.leafNodes.length = s.leafNodes.length) (h2 : s'.innerNodes.length = s.innerNodes.length)
    (h3 : s'.callbackInfos.length = s.callbackInfos.length) (hf : s'.Fits) :
    (s'.writeBack buf).length = buf.length ∧ (s'.writeBack buf).take 8 = buf.take 8 ∧
    Slab.fromBuffer C (s'.writeBack buf) t = .ok s' := by
  obtain ⟨hp, b, hb, ht⟩ := Slab.fromBuffer_ok_iff.1 h
  have hs : s.SameShape s' := ⟨h1, h2, h3⟩
  have hlong := hp.long
  refine ⟨hp.length_writeBack hs, ?_, Slab.fromBuffer_ok_iff.2 ⟨hp.read_write hs hf, b, ?_, ht⟩⟩
  · exact slice_head _ _ _ (by rw [List.length_take]; omega)
  · rw [Slab.writeBack_tag _ (by omega), hb]

/-- C43, event queues (`from_buffer` also rewrites the tag). -/
theorem C43_queue_read_write {buf buf' : Bytes} {t : AccountTag} {q : EventQueue C}
    (h : EventQueue.fromBuffer C buf t = .ok (q, buf')) :
    q.writeBack buf' = buf' ∧ buf'.drop 8 = buf.drop 8 ∧ buf'.length = buf.length ∧
    field buf' 0 8 = AccountTag.eventQueue.toNat ∧ q.Fits := by
  obtain ⟨hp, ht, rfl⟩ := EventQueue.fromBuffer_ok_iff.1 h
  have hlong := hp.long
  have h1 : (toLE 8 AccountTag.eventQueue.toNat ++ buf.drop 8).drop 8 = buf.drop 8 := by
    rw [slice_skip _ _ _ (by simp), toLE_length, Nat.sub_self, List.drop_zero]
  refine ⟨?_, h1, by simp; omega, field_head _ (by decide), hp.fits⟩
  have := hp.writeBack
  unfold EventQueue.writeBack at this ⊢
  rw [slice_head _ _ _ (toLE_length _ _)]
  congr 1
  have := congrArg (List.drop 8) this
  rwa [slice_skip _ _ _ (by simp), show (buf.take 8).length = 8 by simp; omega, Nat.sub_self, List.drop_zero] at this

/-- C43, event queues. -/
theorem C43_queue_write_read {buf : Bytes} {q q' : EventQueue C} {buf' : Bytes} {t : AccountTag}
    (h : EventQueue.fromBuffer C buf t = .ok (q, buf')) (h1 : q'.events.length = q.events.length)
    (h2 : q'.callbackInfos.length = q.callbackInfos.length) (hf : q'.Fits) :
    (q'.writeBack buf').length = buf.length ∧
    EventQueue.fromBuffer C (q'.writeBack buf') .eventQueue = .ok (q', q'.writeBack buf') := by
  obtain ⟨-, hd, hl, hta, -⟩ := C43_queue_read_write h
  obtain ⟨hp, ht, -⟩ := EventQueue.fromBuffer_ok_iff.1 h
  have hlong := hp.long
  have hp' : QueueParts C buf' q := by
    have hd' : ∀ n, 8 ≤ n → buf'.drop n = buf.drop n := by
      intro n hn
      have := congrArg (List.drop (n - 8)) hd
      rwa [List.drop_drop, List.drop_drop, show 8 + (n - 8) = n by omega] at this
    refine ⟨by omega, ?_, ?_, ?_⟩
    · rw [hd]; exact hp.header
    · rw [hl, hd' _ (by omega)]; exact hp.events
    · rw [hl, hd' _ (by omega)]; exact hp.infos
  have hs : q.SameShape q' := ⟨h1, h2⟩
  have htag : field (q'.writeBack buf') 0 8 = AccountTag.eventQueue.toNat := by
    rw [EventQueue.writeBack_tag _ (by omega), hta]
  have hlen := hp'.length_writeBack hs hf
  refine ⟨by omega, EventQueue.fromBuffer_ok_iff.2 ⟨hp'.read_write hs hf, htag, ?_⟩⟩
  rw [writeTag_same (by omega) htag]

/-- C43, market accounts. -/
theorem C43_market_read_write {buf buf' : Bytes} {t : AccountTag} {m : MarketState}
    (h : MarketState.fromBuffer buf t = .ok (m, buf')) :
    m.writeBack buf' = buf' ∧ buf'.drop 8 = buf.drop 8 ∧ buf'.length = buf.length ∧
    field buf' 0 8 = AccountTag.market.toNat ∧ m.Fits := by
  obtain ⟨hl, ht, rfl, rfl⟩ := MarketState.fromBuffer_ok_iff.1 h
  have h1 : (toLE 8 AccountTag.market.toNat ++ buf.drop 8).drop 8 = buf.drop 8 := by
    rw [slice_skip _ _ _ (by simp), toLE_length, Nat.sub_self, List.drop_zero]
  refine ⟨?_, h1, by simp; omega, field_head _ (by decide), MarketState.fits_ofBytes _⟩
  unfold MarketState.writeBack
  rw [MarketState.toBytes_ofBytes _ (by simp; omega), slice_head _ _ _ (toLE_length _ _)]

/-- C43, market accounts. -/
theorem C43_market_write_read {buf buf' : Bytes} {t : AccountTag} {m m' : MarketState}
    (h : MarketState.fromBuffer buf t = .ok (m, buf')) (hf : m'.Fits) :
    (m'.writeBack buf').length = buf.length ∧
    MarketState.fromBuffer (m'.writeBack buf') .market = .ok (m', m'.writeBack buf') := by
  obtain ⟨-, hd, hl, hta, -⟩ := C43_market_read_write h
  obtain ⟨hlen, -⟩ := MarketState.fromBuffer_ok_iff.1 h
  have h8 : (buf'.take 8).length = 8 := by simp; omega
  have hl' : (m'.writeBack buf').length = 120 := by
    unfold MarketState.writeBack
    rw [List.length_append, MarketState.length_toBytes, h8]
  have htag : field (m'.writeBack buf') 0 8 = AccountTag.market.toNat := by
    unfold MarketState.writeBack
    rw [← field_take, slice_head _ _ _ h8, field_take, hta]
  refine ⟨by omega, MarketState.fromBuffer_ok_iff.2 ⟨hl', htag, ?_, ?_⟩⟩
  · unfold MarketState.writeBack
    rw [slice_skip _ _ _ (by omega), h8, Nat.sub_self, List.drop_zero, MarketState.ofBytes_toBytes _ hf]
  · rw [writeTag_same (by omega) htag]

/-! ### C44: the shared event slot -/

/-- C44. The slot an Out event is stored in holds exactly the bytes of the event, with the tag byte set to 1. -/
theorem C44_out_bytes (o : OutEvent) (hf : o.Fits) :
    o.toGeneric.toBytes = ({ o with tag := 1 } : OutEvent).toBytes ∧
    field o.toGeneric.toBytes 0 1 = 1 ∧ field o.toGeneric.toBytes 1 1 = o.side ∧
    field o.toGeneric.toBytes 16 16 = o.orderId ∧ field o.toGeneric.toBytes 32 8 = o.baseSize := by
  obtain ⟨h1, h2, h3, h4, h5⟩ := hf
  have e : o.toGeneric.toBytes = ({ o with tag := 1 } : OutEvent).toBytes := by
    unfold OutEvent.toGeneric OutEvent.castFill FillEvent.toBytes OutEvent.toBytes
    have h6 : (o.padding.drop 6).length = 8 := by simp; omega
    have h7 : toLE 8 (ofLE (o.padding.drop 6)) = o.padding.drop 6 := by
      have := toLE_ofLE (o.padding.drop 6); rwa [h6] at this
    simp only [TAG_OUT]
    rw [h7, ← List.append_assoc (o.padding.take 6), List.take_append_drop]
  refine ⟨e, ?_⟩
  rw [e]
  unfold OutEvent.toBytes
  refine ⟨field_head _ (show 1 < 256 ^ 1 by decide), ?_, ?_, ?_⟩ <;>
    simp_all [field_skip, field_head, field_last]

/-- C44. Reading the bytes of an Out slot gives the Out event back. -/
theorem C44_out_slot (o : OutEvent) (hf : o.Fits) :
    (FillEvent.ofBytes o.toGeneric.toBytes).tag = 1 ∧
    (FillEvent.ofBytes o.toGeneric.toBytes).castOut = { o with tag := 1 } := by
  obtain ⟨h1, h2, h3, h4, h5⟩ := hf
  have h6 : (o.padding.drop 6).length = 8 := by simp; omega
  have hfit : o.toGeneric.Fits := by
    refine ⟨show 1 < 256 ^ 1 by decide, h2, by simp [OutEvent.toGeneric, OutEvent.castFill, h3], ?_, h4, h5⟩
    have := ofLE_lt (o.padding.drop 6)
    rwa [h6] at this
  rw [FillEvent.ofBytes_toBytes _ hfit]
  refine ⟨rfl, ?_⟩
  have h7 : toLE 8 (ofLE (o.padding.drop 6)) = o.padding.drop 6 := by
    have := toLE_ofLE (o.padding.drop 6); rwa [h6] at this
  simp [OutEvent.toGeneric, OutEvent.castFill, FillEvent.castOut, h7, TAG_OUT]

/-- C44. Reading the bytes of a Fill slot gives the Fill event back. -/
theorem C44_fill_slot (e : FillEvent) (hf : e.Fits) :
    FillEvent.ofBytes e.toGeneric.toBytes = { e with tag := 0 } := by
  obtain ⟨h1, h2, h3, h4, h5, h6⟩ := hf
  exact FillEvent.ofBytes_toBytes _ ⟨show 0 < 256 ^ 1 by decide, h2, h3, h4, h5, h6⟩

/-- C44. The casts between the two kinds of events reinterpret the same 40 bytes. -/
theorem C44_cast (b : Bytes) (h : b.length = 40) :
    (FillEvent.ofBytes b).castOut = OutEvent.ofBytes b ∧ (OutEvent.ofBytes b).castFill = FillEvent.ofBytes b := by
  constructor
  · simp only [FillEvent.castOut, FillEvent.ofBytes, OutEvent.ofBytes]
    rw [toLE_field _ _ _ (by omega), show 14 = 6 + 8 from rfl, List.take_add, List.drop_drop]
  · simp only [OutEvent.castFill, FillEvent.ofBytes, OutEvent.ofBytes]
    rw [List.take_take, List.drop_take, List.drop_drop]
    rfl

example := C44_cast (List.range 40 |>.map UInt8.ofNat) (by decide)

/-- C44. An Out event pushed to a queue is read back, after a trip through the account bytes, as an Out event with
the same side, id and base size, and with its callback info; likewise a Fill event. -/
theorem C44_push {buf : Bytes} {q q' q'' : EventQueue C} {b1 b2 : Bytes} {t : AccountTag} {e : AnyEvent} {maker : C}
    {taker : Option C} (h : EventQueue.fromBuffer C buf t = .ok (q, b1))
    (he : match e with | .out o => o.Fits | .fill f => f.Fits)
    (hpush : q.pushBack e (some maker) taker = .ok (.pushed q'))
    (hread : EventQueue.fromBuffer C (q'.writeBack b1) .eventQueue = .ok (q'', b2)) :
    match e with
    | .out o => q''.getEvent ((q.header.head + q.header.count) % q.events.length)
        = .ok (.out { o with tag := 1 } maker)
    | .fill f => ∀ c, taker = some c → q''.getEvent ((q.header.head + q.header.count) % q.events.length)
        = .ok (.fill { f with tag := 0 } maker c) := by
  obtain ⟨-, -, -, -, hfit⟩ := C43_queue_read_write h
  have hg : e.toGeneric.Fits := by
    cases e with
    | fill f => obtain ⟨h1, h2, h3, h4, h5, h6⟩ := he; exact ⟨(by decide : (0:Nat) < 256 ^ 1), h2, h3, h4, h5, h6⟩
    | out o =>
      obtain ⟨h1, h2, h3, h4, h5⟩ := he
      have h6 : (o.padding.drop 6).length = 8 := by simp; omega
      refine ⟨(by decide : (1:Nat) < 256 ^ 1), h2, ?_, ?_, h4, h5⟩
      · simp [AnyEvent.toGeneric, OutEvent.toGeneric, OutEvent.castFill, h3]
      · have := ofLE_lt (o.padding.drop 6)
        rwa [h6] at this
  unfold EventQueue.pushBack at hpush
  split at hpush
  · cases hpush
  obtain ⟨sum, hsum, hpush⟩ := bind_ok hpush
  obtain ⟨hs1, rfl⟩ := addU64_ok_iff.1 hsum
  obtain ⟨k, hk, hpush⟩ := bind_ok hpush
  obtain ⟨hk1, rfl⟩ := remU_ok_iff.1 hk
  generalize (q.header.head + q.header.count) % q.events.length = k at *
  obtain ⟨evs, hev, hpush⟩ := bind_ok hpush
  obtain ⟨hev1, rfl⟩ := setIdx_ok_iff.1 hev
  obtain ⟨cnt, hcnt, hpush⟩ := bind_ok hpush
  obtain ⟨hcnt1, rfl⟩ := addU64_ok_iff.1 hcnt
  obtain ⟨i1, hi1, hpush⟩ := bind_ok hpush
  obtain ⟨hi1', rfl⟩ := setIdx_ok_iff.1 hi1
  obtain ⟨i2, hi2, hpush⟩ := bind_ok hpush
  have hq' := PushResult.pushed.inj (Except.ok.inj hpush)
  have hi2len : i2.length = q.callbackInfos.length := by
    cases taker with
    | none => rw [← Except.ok.inj hi2]; simp
    | some c => obtain ⟨-, rfl⟩ := setIdx_ok_iff.1 hi2; simp
  have hfit' : q'.Fits := by
    subst hq'
    refine ⟨⟨hfit.1.1, ?_, hfit.1.2.2⟩, ?_⟩
    · exact hcnt1
    · intro x hx
      rcases List.mem_or_eq_of_mem_set hx with hx | rfl
      · exact hfit.2 x hx
      · exact hg
  obtain ⟨-, hrw⟩ := C43_queue_write_read h (q' := q') (by subst hq'; simp) (by subst hq'; simpa using hi2len) hfit'
  rw [hrw] at hread
  obtain ⟨rfl, -⟩ := Prod.mk.inj (Except.ok.inj hread)
  have hget : idx q'.events k = .ok e.toGeneric := by
    subst hq'; rw [idx_ok]; simp [hev1]
  have hmk : idx q'.callbackInfos (2 * k) = .ok maker := by
    subst hq'
    rw [idx_ok, Nat.mul_comm]
    cases taker with
    | none => rw [← Except.ok.inj hi2]; simp [hi1']
    | some c =>
      obtain ⟨-, rfl⟩ := setIdx_ok_iff.1 hi2
      rw [List.getElem?_set_ne (by omega)]; simp [hi1']
  unfold EventQueue.getEvent
  rw [hget]
  cases e with
  | out o =>
    have h1 := C44_out_slot o he
    rw [FillEvent.ofBytes_toBytes _ (show o.toGeneric.Fits from hg)] at h1
    simp only
    have ht1 : (AnyEvent.out o).toGeneric.tag = TAG_OUT := rfl
    rw [bind_of_ok rfl, if_neg (by rw [ht1]; decide), if_pos ht1, bind_of_ok hmk]
    exact congrArg _ (congrArg (fun x => EventRef.out x maker) h1.2)
  | fill f =>
    intro c hc
    subst hc
    have htk : idx q'.callbackInfos (2 * k + 1) = .ok c := by
      subst hq'
      obtain ⟨h9, rfl⟩ := setIdx_ok_iff.1 hi2
      rw [idx_ok, show 2 * k + 1 = k * 2 + 1 by omega]
      exact List.getElem?_set_self h9
    have ht1 : (AnyEvent.fill f).toGeneric.tag = TAG_FILL := rfl
    rw [bind_of_ok rfl, if_pos ht1, bind_of_ok hmk, bind_of_ok htk]
    rfl

/-! ### A concrete case

A slab account for 3 orders and an event queue account for 5 events, with the 32-byte callback infos of the
stand-alone program. -/

def demoBids : Bytes := 130 :: List.replicate 271 0
def demoQueueAcc : Bytes := toLE 8 129 ++ List.replicate (5 * 104 + 24) 0

example : Slab.computeAllocationSize Bytes32 3 = .ok demoBids.length ∧ demoBids[0]? = some 130 ∧
    (130 : UInt8).toNat = AccountTag.bids.toNat ∧ demoBids.drop 8 = List.replicate (demoBids.length - 8) 0 := by
  decide +kernel

example : demoQueueAcc.length = EventQueue.computeAllocationSize Bytes32 5 ∧
    field demoQueueAcc 0 8 = AccountTag.eventQueue.toNat ∧
    EventQueue.checkBufferSize Bytes32 demoQueueAcc = .ok () ∧
    EventQueue.checkBufferSize Bytes32 (demoQueueAcc ++ [0]) = .error (.prog .invalidAccountData) ∧
    EventQueue.checkBufferSize Bytes32 (demoQueueAcc.take 448) = .error (.prog .invalidAccountData) := by
  decide +kernel

/-- A slab that has been used: one order, in range. -/
def demoUsed : Slab Bytes32 :=
  { header := ⟨0, 0, 1, 0, 0, 0, 0, 1⟩
    leafNodes := [⟨7 * 2 ^ 64 + 5, 9⟩, ⟨0, 0⟩, ⟨0, 0⟩]
    innerNodes := [⟨0, 0, 0, 0⟩, ⟨0, 0, 0, 0⟩]
    callbackInfos := [⟨List.replicate 32 3, rfl⟩, ⟨List.replicate 32 0, rfl⟩, ⟨List.replicate 32 0, rfl⟩] }

example : demoUsed.Fits := by
  refine ⟨?_, ?_, ?_⟩ <;> simp [demoUsed, SlabHeader.Fits, LeafNode.Fits, InnerNode.Fits]

example : Slab.fromBuffer Bytes32 (demoUsed.writeBack demoBids) .bids = .ok demoUsed := by decide +kernel

example : field (demoUsed.writeBack demoBids) 40 16 = 7 * 2 ^ 64 + 5 ∧ field (demoUsed.writeBack demoBids) 56 8 = 9 := by
  decide +kernel

def demoOut : OutEvent :=
  { tag := 0, side := 1, padding := List.replicate 14 0, orderId := 11 * 2 ^ 64 + 6, baseSize := 12 }

example : demoOut.Fits := by simp [demoOut, OutEvent.Fits]

example : (FillEvent.ofBytes demoOut.toGeneric.toBytes).castOut = { demoOut with tag := 1 } := by decide +kernel

def demoState : MarketState :=
  { eventQueue := ⟨List.replicate 32 1, rfl⟩, bids := ⟨List.replicate 32 2, rfl⟩, asks := ⟨List.replicate 32 3, rfl⟩,
    minBaseOrderSize := 10, tickSize := 2 ^ 32 }

example : MarketState.fromBuffer (demoState.writeBack (toLE 8 128 ++ List.replicate 112 0)) .market
    = .ok (demoState, toLE 8 128 ++ demoState.toBytes) := by decide +kernel

/-! Each theorem applied. -/

example := C42_slab (C := Bytes32) (n := 3) (buf := demoBids) (t := .bids) (by decide) (by decide +kernel)
  (show demoBids[0]? = some 130 from rfl) (by decide)
example := C42_slab_capacity (C := Bytes32) (n := 3) (buf := demoBids) (t := .bids) (by decide) (by decide)
  (by decide +kernel) (show demoBids[0]? = some 130 from rfl) (by decide) (by decide +kernel)
example := C42_queue (C := Bytes32) (n := 5) (buf := demoQueueAcc) (t := .eventQueue) (by decide +kernel) (by decide +kernel)
example := C42_queue_check (C := Bytes32) (buf := demoQueueAcc) (by decide +kernel)

theorem demoUsed_fits : demoUsed.Fits := by
  refine ⟨?_, ?_, ?_⟩ <;> simp [demoUsed, SlabHeader.Fits, LeafNode.Fits, InnerNode.Fits]

theorem demoBids_reads : ∃ s, Slab.fromBuffer Bytes32 demoBids .bids = .ok s ∧ s.leafNodes.length = 3 ∧
    s.innerNodes.length = 2 ∧ s.callbackInfos.length = 3 :=
  (C42_slab (C := Bytes32) (n := 3) (t := .bids) (by decide) (by decide +kernel) (show demoBids[0]? = some 130 from rfl)
    (by decide)).2

example := C43_slab_read_write (C := Bytes32) (buf := demoUsed.writeBack demoBids) (t := .bids) (s := demoUsed)
  (by decide +kernel)
example := C43_slab_write_read (s' := demoUsed) demoBids_reads.choose_spec.1
  (by rw [demoBids_reads.choose_spec.2.1]; rfl) (by rw [demoBids_reads.choose_spec.2.2.1]; rfl)
  (by rw [demoBids_reads.choose_spec.2.2.2]; rfl) demoUsed_fits

/-- What is read from `demoQueueAcc`. -/
def demoQ : EventQueue Bytes32 × Bytes :=
  match EventQueue.fromBuffer Bytes32 demoQueueAcc .eventQueue with
  | .ok x => x
  | .error _ => (⟨⟨0, 0, 0⟩, [], []⟩, [])

theorem demoQueueAcc_reads : EventQueue.fromBuffer Bytes32 demoQueueAcc .eventQueue = .ok (demoQ.1, demoQ.2) := by
  decide +kernel

example := C43_queue_read_write demoQueueAcc_reads

/-- A queue that has been used: one event pushed. -/
def demoUsedQueue : EventQueue Bytes32 :=
  { header := ⟨2, 1, 17⟩
    events := List.replicate 5 ⟨0, 1, List.replicate 6 0, 4, 2 ^ 100, 5⟩
    callbackInfos := List.replicate 10 ⟨List.replicate 32 3, rfl⟩ }

theorem demoUsedQueue_fits : demoUsedQueue.Fits := by
  refine ⟨?_, ?_⟩ <;> simp [demoUsedQueue, EventQueueHeader.Fits, FillEvent.Fits]

example := C43_queue_write_read (q' := demoUsedQueue) demoQueueAcc_reads
  (by decide +kernel) (by decide +kernel) demoUsedQueue_fits

example := C43_market_read_write (buf := toLE 8 128 ++ demoState.toBytes) (buf' := toLE 8 128 ++ demoState.toBytes)
  (t := .market) (m := demoState) (by decide +kernel)
example := C43_market_write_read (buf := toLE 8 0 ++ demoState.toBytes) (buf' := toLE 8 128 ++ demoState.toBytes)
  (t := .uninitialized) (m := demoState) (m' := { demoState with tickSize := 5 }) (by decide +kernel)
  (by simp [demoState, MarketState.Fits])

example := C44_out_bytes demoOut (by simp [demoOut, OutEvent.Fits])
example := C44_out_slot demoOut (by simp [demoOut, OutEvent.Fits])
example := C44_fill_slot ⟨0, 1, List.replicate 6 0, 4, 2 ^ 100, 5⟩ (by simp [FillEvent.Fits])

/-- The queue with `demoOut` pushed. -/
def demoPushed : EventQueue Bytes32 :=
  match demoQ.1.pushBack (.out demoOut) (some ⟨List.replicate 32 8, rfl⟩) none with
  | .ok (.pushed q) => q
  | _ => demoQ.1

example := C44_push (C := Bytes32) (e := .out demoOut) (q' := demoPushed) (q'' := demoPushed)
  (maker := ⟨List.replicate 32 8, rfl⟩) (taker := none) (b2 := demoPushed.writeBack demoQ.2) demoQueueAcc_reads
  (by simp [demoOut, OutEvent.Fits]) (by decide +kernel) (by decide +kernel)

end Layout
end AOB
