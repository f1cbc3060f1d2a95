import Verif.Proofs.Shape
import Verif.Spec.Chain
/-
Loading a market from the accounts and storing it back.
-/
namespace AOB

/-! ### Tags -/

theorem byte0_of_field {b : Bytes} {n : Nat} (hl : 8 ≤ b.length) (h : field b 0 8 = n) :
    b[0]? = some (UInt8.ofNat n) := by
  have h1 := toLE_field b 0 8 (by omega)
  rw [h, List.drop_zero] at h1
  have h2 : (b.take 8)[0]? = b[0]? := List.getElem?_take_of_lt (by omega)
  rw [← h2, ← h1]
  rfl

theorem byte0_writeTag (b : Bytes) (n : Nat) : (toLE 8 n ++ b.drop 8)[0]? = some (UInt8.ofNat n) := by
  rfl

theorem byte0_length {b : Bytes} {x : UInt8} (h : b[0]? = some x) : 0 < b.length := by
  cases b with
  | nil => cases h
  | cons _ _ => exact Nat.succ_pos _

theorem u8_eq {x : UInt8} {n : Nat} (h : x.toNat = n) : x = UInt8.ofNat n := by
  subst h; exact (UInt8.ofNat_toNat).symm

/-! ### Worlds -/

namespace World

theorem setData_data (w : World) (k : Pubkey) (d : Bytes) (j : Pubkey) :
    (w.setData k d j).data = if j = k then d else (w j).data := by
  unfold setData; split <;> rfl

theorem setData_owner (w : World) (k : Pubkey) (d : Bytes) (j : Pubkey) : (w.setData k d j).owner = (w j).owner := by
  unfold setData; split
  · rename_i h; subst h; rfl
  · rfl

theorem setData_lamports (w : World) (k : Pubkey) (d : Bytes) (j : Pubkey) :
    (w.setData k d j).lamports = (w j).lamports := by
  unfold setData; split
  · rename_i h; subst h; rfl
  · rfl

theorem setLamports_data (w : World) (k : Pubkey) (l : Nat) (j : Pubkey) :
    (w.setLamports k l j).data = (w j).data := by
  unfold setLamports; split
  · rename_i h; subst h; rfl
  · rfl

theorem setLamports_owner (w : World) (k : Pubkey) (l : Nat) (j : Pubkey) :
    (w.setLamports k l j).owner = (w j).owner := by
  unfold setLamports; split
  · rename_i h; subst h; rfl
  · rfl

theorem setLamports_lamports (w : World) (k : Pubkey) (l : Nat) (j : Pubkey) :
    (w.setLamports k l j).lamports = if j = k then l else (w j).lamports := by
  unfold setLamports; split <;> rfl

theorem setData_same {w : World} {k : Pubkey} {d : Bytes} (h : d = (w k).data) : w.setData k d = w := by
  funext j
  unfold setData; split
  · rename_i e; subst e; subst h; rfl
  · rfl

theorem ext {w w' : World} (h : ∀ j, (w j).owner = (w' j).owner ∧ (w j).lamports = (w' j).lamports ∧
    (w j).data = (w' j).data) : w = w' := by
  funext j
  obtain ⟨h1, h2, h3⟩ := h j
  cases hj : w j; cases hj' : w' j
  simp_all

end World

/-! ### Loading -/

section
variable {C : Type} [Pod C]

/-- The market `m` is what the accounts reachable from the market account `k` contain. -/
structure Loaded (w : World) (k : Pubkey) (m : Market C) : Prop where
  len : (w k).data.length = 120
  tag : field (w k).data 0 8 = 128
  minBase : m.minBaseOrderSize = (stateAt w k).minBaseOrderSize
  tick : m.tickSize = (stateAt w k).tickSize
  bids : SlabParts C (w (stateAt w k).bids).data m.book.bids
  bidsTag : (w (stateAt w k).bids).data[0]? = some 130
  asks : SlabParts C (w (stateAt w k).asks).data m.book.asks
  asksTag : (w (stateAt w k).asks).data[0]? = some 131
  queue : QueueParts C (w (stateAt w k).eventQueue).data m.queue
  queueTag : field (w (stateAt w k).eventQueue).data 0 8 = 129

theorem slabRead {b : Bytes} {t : AccountTag} {s : Slab C} {x : UInt8} (ht : x.toNat = t.toNat) :
    Slab.fromBuffer C b t = .ok s ↔ SlabParts C b s ∧ b[0]? = some x := by
  rw [Slab.fromBuffer_ok_iff]
  constructor
  · rintro ⟨h, y, hy, hyt⟩
    refine ⟨h, hy.trans ?_⟩
    rw [u8_eq (hyt.trans ht.symm), UInt8.ofNat_toNat]
  · rintro ⟨h, hx⟩
    exact ⟨h, x, hx, ht⟩

theorem loadMarket_ok_iff {w : World} {k : Pubkey} {m : Market C} : loadMarket C w k = .ok m ↔ Loaded w k m := by
  unfold loadMarket
  constructor
  · intro h
    obtain ⟨⟨ms, md⟩, hms, h⟩ := bind_ok h
    obtain ⟨b, hb, h⟩ := bind_ok h
    obtain ⟨a, ha, h⟩ := bind_ok h
    obtain ⟨⟨q, qd⟩, hq, h⟩ := bind_ok h
    obtain rfl := Except.ok.inj h
    obtain ⟨h1, h2, rfl, rfl⟩ := MarketState.fromBuffer_ok_iff.1 hms
    obtain ⟨b1, b2⟩ := (slabRead (x := 130) rfl).1 hb
    obtain ⟨a1, a2⟩ := (slabRead (x := 131) rfl).1 ha
    obtain ⟨q1, q2, rfl⟩ := EventQueue.fromBuffer_ok_iff.1 hq
    exact ⟨h1, h2, rfl, rfl, b1, b2, a1, a2, q1, q2⟩
  · rintro ⟨h1, h2, h3, h4, b1, b2, a1, a2, q1, q2⟩
    unfold stateAt at h3 h4 b1 b2 a1 a2 q1 q2
    rw [bind_of_ok ((MarketState.fromBuffer_ok_iff (t := .market)).2 ⟨h1, h2, rfl, rfl⟩)]
    dsimp only
    rw [bind_of_ok ((slabRead (t := .bids) (x := 130) rfl).2 ⟨b1, b2⟩),
      bind_of_ok ((slabRead (t := .asks) (x := 131) rfl).2 ⟨a1, a2⟩),
      bind_of_ok ((EventQueue.fromBuffer_ok_iff (t := .eventQueue)).2 ⟨q1, q2, rfl⟩)]
    dsimp only
    cases m
    simp_all

theorem Loaded.inj {w : World} {k : Pubkey} {m m' : Market C} (h : Loaded w k m) (h' : Loaded w k m') : m = m' := by
  rw [← loadMarket_ok_iff] at h h'
  exact Except.ok.inj (h.symm.trans h')

/-- The four tags of a loaded market, as first bytes. -/
theorem Loaded.bytes {w : World} {k : Pubkey} {m : Market C} (h : Loaded w k m) :
    (w k).data[0]? = some 128 ∧ (w (stateAt w k).eventQueue).data[0]? = some 129 ∧
    (w (stateAt w k).bids).data[0]? = some 130 ∧ (w (stateAt w k).asks).data[0]? = some 131 := by
  have hl := h.len
  have hq := h.queue.long
  exact ⟨byte0_of_field (by omega) h.tag, byte0_of_field (by omega) h.queueTag, h.bidsTag, h.asksTag⟩

theorem ne_of_byte0 {w : World} {j k : Pubkey} {x y : UInt8} (hj : (w j).data[0]? = some x)
    (hk : (w k).data[0]? = some y) (h : x ≠ y) : j ≠ k := by
  rintro rfl
  exact h (Option.some.inj (hj.symm.trans hk))

/-- The accounts of a loaded market are four different ones. -/
theorem Loaded.distinct {w : World} {k : Pubkey} {m : Market C} (h : Loaded w k m) :
    k ≠ (stateAt w k).eventQueue ∧ k ≠ (stateAt w k).bids ∧ k ≠ (stateAt w k).asks ∧
    (stateAt w k).eventQueue ≠ (stateAt w k).bids ∧ (stateAt w k).eventQueue ≠ (stateAt w k).asks ∧
    (stateAt w k).bids ≠ (stateAt w k).asks := by
  obtain ⟨h1, h2, h3, h4⟩ := h.bytes
  exact ⟨ne_of_byte0 h1 h2 (by decide), ne_of_byte0 h1 h3 (by decide), ne_of_byte0 h1 h4 (by decide),
    ne_of_byte0 h2 h3 (by decide), ne_of_byte0 h2 h4 (by decide), ne_of_byte0 h3 h4 (by decide)⟩

/-- The accounts after the market at `k` has become `m`. -/
def store (w : World) (k : Pubkey) (m : Market C) : World :=
  ((w.setData (stateAt w k).bids (m.book.bids.writeBack (w (stateAt w k).bids).data)).setData (stateAt w k).asks
    (m.book.asks.writeBack (w (stateAt w k).asks).data)).setData (stateAt w k).eventQueue
    (m.queue.writeBack (w (stateAt w k).eventQueue).data)

/-- `m'` has the parameters of `m` and is representable in the same accounts. -/
def Market.Kept (m m' : Market C) : Prop :=
  m'.minBaseOrderSize = m.minBaseOrderSize ∧ m'.tickSize = m.tickSize ∧ m.book.Kept m'.book ∧ m.queue.Kept m'.queue

theorem Loaded.fits {w : World} {k : Pubkey} {m : Market C} (h : Loaded w k m) : m.book.Fits ∧ m.queue.Fits :=
  ⟨⟨h.bids.fits, h.asks.fits⟩, h.queue.fits⟩

theorem store_owner (w : World) (k : Pubkey) (m : Market C) (j : Pubkey) : (store w k m j).owner = (w j).owner := by
  simp only [store, World.setData_owner]

theorem store_lamports (w : World) (k : Pubkey) (m : Market C) (j : Pubkey) :
    (store w k m j).lamports = (w j).lamports := by
  simp only [store, World.setData_lamports]

theorem store_other (w : World) (k : Pubkey) (m : Market C) {j : Pubkey} (h1 : j ≠ (stateAt w k).eventQueue)
    (h2 : j ≠ (stateAt w k).bids) (h3 : j ≠ (stateAt w k).asks) : store w k m j = w j := by
  simp only [store, World.setData, h1, h2, h3, if_false]

theorem Loaded.store_data {w : World} {k : Pubkey} {m : Market C} (h : Loaded w k m) (m' : Market C) :
    (store w k m' k).data = (w k).data ∧
    (store w k m' (stateAt w k).bids).data = m'.book.bids.writeBack (w (stateAt w k).bids).data ∧
    (store w k m' (stateAt w k).asks).data = m'.book.asks.writeBack (w (stateAt w k).asks).data ∧
    (store w k m' (stateAt w k).eventQueue).data = m'.queue.writeBack (w (stateAt w k).eventQueue).data := by
  obtain ⟨d1, d2, d3, d4, d5, d6⟩ := h.distinct
  simp [store, World.setData_data, d1, d2, d3, d4.symm, d5.symm, d6]

theorem stateAt_store {w : World} {k : Pubkey} {m : Market C} (h : Loaded w k m) (m' : Market C) :
    stateAt (store w k m') k = stateAt w k := by
  unfold stateAt
  rw [(h.store_data m').1]

theorem Loaded.stored {w : World} {k : Pubkey} {m m' : Market C} (h : Loaded w k m) (hk : m.Kept m') :
    Loaded (store w k m') k m' := by
  obtain ⟨e1, e2, e3, e4⟩ := h.store_data m'
  obtain ⟨k1, k2, ⟨k3, k4⟩, k5⟩ := hk
  have hb := h.bids.long
  have ha := h.asks.long
  have hq := h.queue.long
  refine ⟨?_, ?_, ?_, ?_, ?_, ?_, ?_, ?_, ?_, ?_⟩
  · rw [e1]; exact h.len
  · rw [e1]; exact h.tag
  · rw [stateAt_store h, k1]; exact h.minBase
  · rw [stateAt_store h, k2]; exact h.tick
  · rw [stateAt_store h, e2]; exact h.bids.read_write k3.2 k3.1
  · rw [stateAt_store h, e2, Slab.writeBack_tag _ (by omega)]; exact h.bidsTag
  · rw [stateAt_store h, e3]; exact h.asks.read_write k4.2 k4.1
  · rw [stateAt_store h, e3, Slab.writeBack_tag _ (by omega)]; exact h.asksTag
  · rw [stateAt_store h, e4]; exact h.queue.read_write k5.2 k5.1
  · rw [stateAt_store h, e4, EventQueue.writeBack_tag _ (by omega)]; exact h.queueTag

/-- Sizes of accounts do not change. -/
theorem Loaded.store_length {w : World} {k : Pubkey} {m m' : Market C} (h : Loaded w k m) (hk : m.Kept m')
    (j : Pubkey) : (store w k m' j).data.length = (w j).data.length := by
  obtain ⟨e1, e2, e3, e4⟩ := h.store_data m'
  obtain ⟨k1, k2, ⟨k3, k4⟩, k5⟩ := hk
  by_cases h1 : j = (stateAt w k).eventQueue
  · subst h1; rw [e4]; exact h.queue.length_writeBack k5.2 k5.1
  by_cases h2 : j = (stateAt w k).bids
  · subst h2; rw [e2]; exact h.bids.length_writeBack k3.2
  by_cases h3 : j = (stateAt w k).asks
  · subst h3; rw [e3]; exact h.asks.length_writeBack k4.2
  · rw [store_other w k m' h1 h2 h3]

/-- First bytes of accounts do not change. -/
theorem Loaded.store_byte0 {w : World} {k : Pubkey} {m : Market C} (h : Loaded w k m) (m' : Market C)
    (j : Pubkey) : (store w k m' j).data[0]? = (w j).data[0]? := by
  obtain ⟨e1, e2, e3, e4⟩ := h.store_data m'
  have hb := h.bids.long
  have ha := h.asks.long
  have hq := h.queue.long
  by_cases h1 : j = (stateAt w k).eventQueue
  · subst h1; rw [e4]; unfold EventQueue.writeBack
    rw [List.getElem?_append_left (by simp; omega), List.getElem?_take_of_lt (by omega)]
  by_cases h2 : j = (stateAt w k).bids
  · subst h2; rw [e2]; exact Slab.writeBack_tag _ (by omega)
  by_cases h3 : j = (stateAt w k).asks
  · subst h3; rw [e3]; exact Slab.writeBack_tag _ (by omega)
  · rw [store_other w k m' h1 h2 h3]

end

/-! ### Execution keeps a market representable -/

section
variable {C : Type} [CallbackInfo C]

omit [CallbackInfo C] in
theorem Instr.Fits.ok {i : Instr C} (h : i.Fits) : i.Ok := by
  have e8 : (256 : Nat) ^ 8 = 2 ^ 64 := by decide
  have e16 : (256 : Nat) ^ 16 = 2 ^ 128 := by decide
  cases i with
  | newOrder p => obtain ⟨h1, h2, h3, h4⟩ := h; rw [e8] at h1 h2 h3; exact ⟨h3, h1, h2⟩
  | cancelOrder id => have h' : id < 256 ^ 16 := h; rw [e16] at h'; exact h'
  | massCancelOrders ids => intro id hid; exact e16 ▸ h.2 id hid
  | consumeEvents n => trivial

theorem exec_kept {m m' : Market C} {i : Instr C} {r : Option OrderSummary} (hb : m.book.Fits) (hq : m.queue.Fits)
    (hi : i.Fits) (h : m.exec i = .ok (r, m')) : Market.Kept m m' := by
  cases i with
  | newOrder p =>
    obtain ⟨⟨s, m1⟩, h1, h⟩ := bind_ok h
    obtain ⟨_, rfl⟩ := Prod.mk.inj (Except.ok.inj h)
    unfold Market.newOrder at h1
    obtain ⟨t, _, h1⟩ := bind_ok h1
    split at h1
    · cases h1
    split at h1
    · cases h1
    obtain ⟨⟨s2, b2, q2⟩, h2, h1⟩ := bind_ok h1
    obtain ⟨_, rfl⟩ := Prod.mk.inj (Except.ok.inj h1)
    obtain ⟨g1, g2⟩ := newOrder_kept hb hq hi h2
    exact ⟨rfl, rfl, g1, g2⟩
  | cancelOrder id =>
    obtain ⟨⟨s, m1⟩, h1, h⟩ := bind_ok h
    obtain ⟨_, rfl⟩ := Prod.mk.inj (Except.ok.inj h)
    obtain ⟨⟨s2, b2⟩, h2, h1⟩ := bind_ok h1
    obtain ⟨_, rfl⟩ := Prod.mk.inj (Except.ok.inj h1)
    exact ⟨rfl, rfl, cancelIn_kept hb h2, EventQueue.Kept.refl hq⟩
  | massCancelOrders ids =>
    obtain ⟨⟨s, m1⟩, h1, h⟩ := bind_ok h
    obtain ⟨_, rfl⟩ := Prod.mk.inj (Except.ok.inj h)
    obtain ⟨⟨x, y, b2⟩, h2, h1⟩ := bind_ok h1
    obtain ⟨_, rfl⟩ := Prod.mk.inj (Except.ok.inj h1)
    exact ⟨rfl, rfl, massCancelLoop_kept hb h2, EventQueue.Kept.refl hq⟩
  | consumeEvents n =>
    obtain ⟨m1, h1, h⟩ := bind_ok h
    obtain ⟨_, rfl⟩ := Prod.mk.inj (Except.ok.inj h)
    obtain ⟨q2, h2, h1⟩ := bind_ok h1
    obtain rfl := Except.ok.inj h1
    exact ⟨rfl, rfl, OrderBook.Kept.refl hb, EventQueue.popN_kept hq h2⟩

end
end AOB
