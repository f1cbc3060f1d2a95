import Verif.Props.Chain
import Verif.Props.SlabMap
import Verif.Proofs.Client
import Verif.Model.Wasm
import Verif.Proofs.Tidy
/-
The JavaScript client: what it shows of the accounts of a market, and what its instructions mean to the program.
-/
set_option linter.unusedSectionVars false

namespace AOB
namespace Client
open Js (listed slabKey levels refOf eventOf)

variable {C : Type} [Pod C] [CallbackInfo C] [Borsh C] {env : Env} {R : Pubkey → Prop} {w w' : World}
  {k : Pubkey} {m : Market C} {side : Side}

/-! ### What the client shows of a slab -/

/-- C59. The sizes the client asks for are those the program computes. -/
theorem C59_sizes (n : Nat) :
    (1 ≤ n → AOB.Slab.computeAllocationSize C n = .ok (Js.Slab.computeAllocationSize n (Pod.size C))) ∧
    AOB.EventQueue.computeAllocationSize C n = Js.EventQueue.computeAllocationSize n (Pod.size C) := by
  constructor
  · intro hn
    unfold AOB.Slab.computeAllocationSize Js.Slab.computeAllocationSize subU
    rw [if_pos hn]
    dsimp only [bind, Except.bind]
    congr 1
    obtain ⟨j, rfl⟩ : ∃ j, n = j + 1 := ⟨n - 1, by omega⟩
    rw [Nat.add_sub_cancel, Nat.add_mul j 1, Nat.one_mul]
    show 40 + 24 + Pod.size C + j * (24 + 32 + Pod.size C) = _
    omega
  · unfold AOB.EventQueue.computeAllocationSize Js.EventQueue.computeAllocationSize
    show n * (40 + 2 * Pod.size C) + 24 + 8 = n * (40 + 2 * Pod.size C) + 32
    omega

/-- C59. For no orders at all the program refuses to compute a size, and the client asks for 8 bytes. -/
theorem C59_no_orders (c : Nat) :
    AOB.Slab.computeAllocationSize C 0 = .error .panic ∧ Js.Slab.computeAllocationSize 0 c = 8 := by
  refine ⟨rfl, ?_⟩
  unfold Js.Slab.computeAllocationSize
  omega

/-- C59. On the chain the client reads the description of a market as it is. -/
theorem C59_market (hM : IsMarket env w k) :
    Js.readMarketState (w k).data = .ok (128, stateAt w k) := by
  obtain ⟨_, hl, ht⟩ := hM
  unfold Js.readMarketState
  rw [bind_of_ok (Js.readUint_ok (by omega)), bind_of_ok (Js.readArray_ok (by omega)),
    bind_of_ok (Js.readUint_ok (by omega)), bind_of_ok (Js.readUint_ok (by omega)), ht]
  have hp : ∀ off, pubkeyAt ((w k).data.drop 8) off = pubkeyAt (w k).data (8 + off) := by
    intro off; simp only [pubkeyAt, List.drop_drop]
  have hf : ∀ off n, field ((w k).data.drop 8) off n = field (w k).data (8 + off) n := by
    intro off n; unfold field; rw [List.drop_drop]
  unfold stateAt MarketState.ofBytes
  simp only [hp, hf]

theorem find_reverse {l : List (Order C)} (h : (l.map Order.id).Nodup) (x : Nat) :
    l.reverse.find? (fun o => o.id = x) = l.find? (fun o => o.id = x) :=
  find_perm (List.reverse_perm l).symm h x

/-- The client's slab and the program's, on the chain. -/
theorem slab_same (hw : OnChain env C R w) (hR : ¬ R k) (hM : IsMarket env w k) (hm : loadMarket C w k = .ok m) (side : Side)
    {n : Nat} (hn : 1 ≤ n) (hl : (w (slabKey (stateAt w k) side)).data.length = Js.Slab.computeAllocationSize n (Pod.size C)) :
    ∃ js, Js.Slab.deserialize (w (slabKey (stateAt w k) side)).data (Pod.size C) = .ok js ∧ js.orderCapacity + 1 = n ∧
      ∃ s : AOB.Slab C, Js.Same js s ∧ PRep side s (resting m side) := by
  have hL := loadMarket_ok_iff.1 hm
  have hlink := hw.inv.link k hR hM
  obtain ⟨a, ha⟩ := (Chain.C54_reachable hw hR hM hm).known
  have hrep := ha.rep.tree side
  rw [← ha.rep.resting side] at hrep
  have hlen : (w (slabKey (stateAt w k) side)).data.length = 40 + n * 24 + (n - 1) * 32 + n * Pod.size C := by
    rw [hl]; unfold Js.Slab.computeAllocationSize
    obtain ⟨j, rfl⟩ : ∃ j, n = j + 1 := ⟨n - 1, by omega⟩
    rw [Nat.add_sub_cancel, Nat.add_mul j 1 (24 + 32 + Pod.size C), Nat.mul_add j, Nat.add_mul j 1 (Pod.size C)]; omega
  obtain ⟨c1, c2⟩ := slabCap_alloc (C := C) n hn
  rw [← hlen] at c1 c2
  cases side with
  | bid =>
    have ht := (hw.tidy _ hlink.noRegB hlink.ownerB).bids hL.bidsTag
    obtain ⟨js, h1, h2⟩ := Js.deserialize_same hL.bids c2 (by show field (w (stateAt w k).bids).data 0 8 < _; rw [ht]; decide)
    refine ⟨js, h1, ?_, _, h2, hrep⟩
    rw [h2.room, hL.bids.lengths.1]
    show slabCap C (w (stateAt w k).bids).data.length + 1 = n
    rw [show slabCap C (w (stateAt w k).bids).data.length = n - 1 from c1]; omega
  | ask =>
    have ht := (hw.tidy _ hlink.noRegA hlink.ownerA).asks hL.asksTag
    obtain ⟨js, h1, h2⟩ := Js.deserialize_same hL.asks c2 (by show field (w (stateAt w k).asks).data 0 8 < _; rw [ht]; decide)
    refine ⟨js, h1, ?_, _, h2, hrep⟩
    rw [h2.room, hL.asks.lengths.1]
    show slabCap C (w (stateAt w k).asks).data.length + 1 = n
    rw [show slabCap C (w (stateAt w k).asks).data.length = n - 1 from c1]; omega

omit [CallbackInfo C] [Borsh C] in
theorem listed_prio (side : Side) (descending : Bool) (l : List (Order C)) :
    (if descending then (prio side l).reverse else prio side l) = listed side descending l := by
  cases side <;> cases descending <;> simp [listed, prio]

/-- C59. A client that reads a slab account of the size the program prescribes for `n` orders shows the orders resting
on that side, with their callback infos, and finds an order by its id. Its `orderCapacity` is one less than what the
account was made for. -/
theorem C59_slab (hw : OnChain env C R w) (hR : ¬ R k) (hM : IsMarket env w k) (hm : loadMarket C w k = .ok m)
    (side : Side) {n : Nat} (hn : 1 ≤ n)
    (hl : (w (slabKey (stateAt w k) side)).data.length = Js.Slab.computeAllocationSize n (Pod.size C)) :
    ∃ js, Js.Slab.deserialize (w (slabKey (stateAt w k) side)).data (Pod.size C) = .ok js ∧
      js.orderCapacity + 1 = n ∧
      (∀ descending, js.items descending = .ok ((listed side descending (resting m side)).map refOf)) ∧
      (∀ count max, js.getMinMaxNodes count max = .ok (((listed side max (resting m side)).take count).map refOf)) ∧
      ∀ id < 2 ^ 128, js.getNodeByKey id =
        .ok (((resting m side).find? (fun o => o.id = id)).map (fun o => ⟨o.id, o.qty⟩)) := by
  obtain ⟨js, h1, h2, s, hs, hr⟩ := slab_same hw hR hM hm side hn hl
  refine ⟨js, h1, h2, ?_, ?_, ?_⟩
  · intro d
    rw [Js.items_spec hs hr, listed_prio]
  · intro c d
    rw [Js.getMinMaxNodes_spec hs hr, listed_prio, List.map_take]
  · intro id hid
    rw [Js.getNodeByKey_spec hs hr hid]
    have : (prio side (resting m side)).find? (fun o => o.id = id) = (resting m side).find? (fun o => o.id = id) := by
      cases side with
      | ask => rfl
      | bid =>
        refine find_reverse ?_ id
        have hnd := SRep.sorted (show SRep s (resting m .bid).reverse from hr)
        have : ((resting m .bid).reverse.map Order.id).Nodup := by
          rw [List.Nodup, List.pairwise_map]
          exact hnd.imp (fun h e => by omega)
        rw [List.map_reverse, List.nodup_reverse] at this
        exact this
    rw [this]
    rfl

/-- C51. The price levels the client shows of such a slab are the levels of the book: every price once, in the
order asked for, with the total of all orders at that price, up to the depth asked for. -/
theorem C51_levels (hw : OnChain env C R w) (hR : ¬ R k) (hM : IsMarket env w k) (hm : loadMarket C w k = .ok m)
    (side : Side) {n : Nat} (hn : 1 ≤ n)
    (hl : (w (slabKey (stateAt w k) side)).data.length = Js.Slab.computeAllocationSize n (Pod.size C)) :
    ∃ js, Js.Slab.deserialize (w (slabKey (stateAt w k) side)).data (Pod.size C) = .ok js ∧
      ∀ depth increasing, js.getL2DepthJS depth increasing =
        .ok ((levels (listed side (!increasing) (resting m side))).take depth) := by
  obtain ⟨js, h1, h2, s, hs, hr⟩ := slab_same hw hR hM hm side hn hl
  refine ⟨js, h1, fun depth inc => ?_⟩
  rw [Js.getL2DepthJS_spec hs hr, ← listed_prio]
  cases inc <;> rfl

/-- C51. The levels of the book, unfolded: a price `p` with size `s` is one of them just when orders rest at `p` and
`s` is the total of their quantities; no price occurs twice, and the prices are in order. -/
theorem C51_levels_meaning (h : Reachable m) (side : Side) (descending : Bool) :
    (∀ s p, (⟨s, p⟩ : Js.Price) ∈ levels (listed side descending (resting m side)) ↔
      (∃ o ∈ resting m side, o.price = p) ∧
      s = (((resting m side).filter (fun o => o.price = p)).map Order.qty).sum) ∧
    (levels (listed side descending (resting m side))).Pairwise
      (fun a b => if descending then b.price < a.price else a.price < b.price) := by
  obtain ⟨a, ha⟩ := h.known
  have hr := ha.rep.tree side
  rw [← ha.rep.resting side] at hr
  have hsort : (prio side (resting m side)).Pairwise (fun a b => a.price ≤ b.price) :=
    (SRep.sorted (show SRep _ _ from hr)).imp (fun h => Nat.div_le_div_right (Nat.le_of_lt h))
  generalize resting m side = l at *
  have hmem : ∀ o, o ∈ listed side descending l ↔ o ∈ l := by
    intro o; cases side <;> cases descending <;> simp [listed]
  have hsum : ∀ p, (((listed side descending l).filter (fun o => o.price == p)).map Order.qty).sum =
      ((l.filter (fun o => o.price = p)).map Order.qty).sum := by
    intro p
    have : ∀ x : List (Order C), (x.filter (fun o => o.price == p)) = x.filter (fun o => o.price = p) :=
      fun x => List.filter_congr (fun o _ => Bool.eq_iff_iff.2 (by rw [beq_iff_eq, decide_eq_true_iff]))
    rw [this]
    cases side <;> cases descending <;> simp [listed, List.filter_reverse, List.map_reverse, List.sum_reverse]
  constructor
  · intro s p
    unfold levels
    rw [List.mem_map]
    constructor
    · rintro ⟨q, hq, e⟩
      injection e with e1 e2
      subst e2
      rw [List.mem_eraseDups, List.mem_map] at hq
      obtain ⟨o, ho, hp⟩ := hq
      exact ⟨⟨o, (hmem o).1 ho, hp⟩, by rw [← e1, hsum]⟩
    · rintro ⟨⟨o, ho, hp⟩, e⟩
      refine ⟨p, ?_, by rw [hsum, e]⟩
      rw [List.mem_eraseDups, List.mem_map]
      exact ⟨o, (hmem o).2 ho, hp⟩
  · unfold levels
    rw [List.pairwise_map]
    have hp : (listed side descending l).Pairwise
        (fun a b => if descending then b.price ≤ a.price else a.price ≤ b.price) := by
      rw [← listed_prio]
      cases descending with
      | false => simpa using hsort
      | true => simpa [List.pairwise_reverse] using hsort
    have hp' : ((listed side descending l).map Order.price).Pairwise
        (fun a b => if descending then b ≤ a else a ≤ b) := List.pairwise_map.2 hp
    have h1 := List.Pairwise.sublist (Js.eraseDups_sublist _ _ (Nat.le_refl _)) hp'
    have h2 := Js.nodup_eraseDups _ ((listed side descending l).map Order.price) (Nat.le_refl _)
    refine (h1.and h2).imp ?_
    rintro x y ⟨g1, g2⟩
    cases descending
    · exact Nat.lt_of_le_of_ne g1 g2
    · exact Nat.lt_of_le_of_ne g1 (Ne.symm g2)

omit [CallbackInfo C] [Borsh C] in
theorem filter_map_fill (l : List (AOB.Event C)) :
    (l.map eventOf).filter Js.Event.isFill = (l.filter AOB.Event.isFill).map eventOf := by
  rw [List.filter_map]
  congr 2
  funext e
  cases e <;> rfl

/-- C52. The client parses the event queue of every market on the chain, and the events it shows at positions `0` to
`count - 1` are the pending ones, first to come first. `parseFill` shows the pending fills only while the head of the
queue is at slot 0. -/
theorem C52_events (hw : OnChain env C R w) (hR : ¬ R k) (hM : IsMarket env w k) (hm : loadMarket C w k = .ok m) :
    ∃ js, Js.EventQueue.parse (Pod.size C) (w (stateAt w k).eventQueue).data = .ok js ∧
      js.header.count = (pending m).length ∧
      (∀ i (hi : i < (pending m).length), js.peekAt i = .ok (eventOf (pending m)[i])) ∧
      (field (w (stateAt w k).eventQueue).data 8 8 = 0 → ∀ limit, js.parseFill limit = .ok (((match limit with
        | some (l + 1) => (pending m).take (l + 1)
        | _ => pending m).filter AOB.Event.isFill).map eventOf)) := by
  have hL := loadMarket_ok_iff.1 hm
  have hlink := hw.inv.link k hR hM
  obtain ⟨a, ha⟩ := (Chain.C54_reachable hw hR hM hm).known
  have hq := ha.rep.queue
  rw [← ha.rep.pending] at hq
  have hT := hw.tidy _ hlink.noRegQ hlink.ownerQ
  obtain ⟨js, h1, h2⟩ := Js.parse_same hL.queue (hT.queue (byte0_of_field (Nat.le_trans (by decide) hL.queue.long) hlink.tagQ))
  have hsmall : m.queue.events.length < 2 ^ 53 := by
    have g1 := hL.queue.lengths.1
    have g2 := queue_len_eq (C := C) hL.queue.long
    have g3 := hT.small
    unfold MAX_ACCOUNT_LEN at g3
    rw [g1]; omega
  refine ⟨js, h1, ?_, fun i hi => Js.peekAt_spec h2 hq (Nat.le_of_lt hsmall) hi, ?_⟩
  · rw [h2.header]
    have := hq.2.1
    rw [List.length_map] at this
    exact this.symm
  · intro h0 limit
    rw [← filter_map_fill]
    refine Js.parseFill_spec h2 hq hsmall ?_ limit
    rw [hL.queue.header]
    show field (((w (stateAt w k).eventQueue).data.drop 8).take 24) 0 8 = 0
    rw [field_seg (by omega)]
    exact h0

/-! ### What the client's instructions mean to the program -/

/-- C58. The client's `cancelOrder`, `consumeEvents`, `massCancelOrder` and `closeMarket` data is read by the program as
the instruction meant. -/
theorem C58_encodings :
    (∀ id < 2 ^ 128, decodeIx C (Js.Ix.cancelOrder id).serialize = .ok (.cancelOrder id)) ∧
    (∀ n < 2 ^ 64, decodeIx C (Js.Ix.consumeEvents n).serialize = .ok (.consumeEvents n)) ∧
    (∀ ids : List Nat, ids.length < 2 ^ 32 → (∀ id ∈ ids, id < 2 ^ 128) →
      decodeIx C (Js.Ix.massCancelOrder ids).serialize = .ok (.massCancelOrders ids)) ∧
    decodeIx C Js.Ix.closeMarket.serialize = .ok .closeMarket :=
  ⟨fun id h => Wire.C45_decode (.cancelOrder id) h, fun n h => Wire.C45_decode (.consumeEvents n) h,
    fun ids h h' => Wire.C45_decode (.massCancelOrders ids) ⟨h, h'⟩, Wire.C45_decode .closeMarket trivial⟩

theorem enc_bool (b : Bool) : encBool b = toLE 1 (Js.boolNumber b) := by cases b <;> rfl
theorem enc_side (s : Side) : encSide s = toLE 1 (Js.sideNumber s) := by cases s <;> rfl
theorem enc_selfTrade (s : SelfTradeBehavior) : encSelfTrade s = toLE 1 (Js.selfTradeNumber s) := by cases s <;> rfl

/-- C58. The client's `newOrder` data is read as an order exactly when the numbers are those of the order and the
callback info of the order is encoded as the client does it: with its length in front. -/
theorem C58_newOrder {mb mq lp side ml po pa stb : Nat} {cb : Bytes}
    (hr : mb < 2 ^ 64 ∧ mq < 2 ^ 64 ∧ lp < 2 ^ 64 ∧ side < 256 ∧ ml < 2 ^ 64 ∧ po < 256 ∧ pa < 256 ∧ stb < 256) (ix : Ix C) :
    decodeIx C (Js.Ix.newOrder mb mq lp side ml cb po pa stb).serialize = .ok ix ↔
      ∃ p, ix = .newOrder p ∧ p.maxBaseQty = mb ∧ p.maxQuoteQty = mq ∧ p.limitPrice = lp ∧ Js.sideNumber p.side = side ∧
        p.matchLimit = ml ∧ Js.boolNumber p.postOnly = po ∧ Js.boolNumber p.postAllowed = pa ∧
        Js.selfTradeNumber p.selfTradeBehavior = stb ∧ Borsh.enc p.callbackInfo = toLE 4 cb.length ++ cb := by
  obtain ⟨r1, r2, r3, r4, r5, r6, r7, r8⟩ := hr
  constructor
  · intro h
    obtain ⟨hin, h | ⟨-, r, h⟩⟩ := Wire.C45_exact h
    · obtain ⟨e1, e2⟩ := List.cons.inj h
      cases ix with
      | newOrder p =>
        obtain ⟨b1, b2, b3, b4⟩ := hin
        refine ⟨p, rfl, ?_⟩
        change _ = encNewOrder p at e2
        unfold encNewOrder at e2
        rw [enc_bool, enc_bool, enc_side, enc_selfTrade] at e2
        obtain ⟨f1, e2⟩ := List.append_inj e2 (by simp)
        obtain ⟨f2, e2⟩ := List.append_inj e2 (by simp)
        obtain ⟨f3, e2⟩ := List.append_inj e2 (by simp)
        obtain ⟨f4, e2⟩ := List.append_inj e2 (by simp)
        obtain ⟨f5, e2⟩ := List.append_inj e2 (by simp)
        obtain ⟨f6, e2⟩ := List.append_inj' e2 (by simp)
        obtain ⟨f7, e2⟩ := List.append_inj e2 (by simp)
        obtain ⟨f8, f9⟩ := List.append_inj e2 (by simp)
        have key : ∀ {n a b : Nat}, a < 256 ^ n → b < 256 ^ n → toLE n a = toLE n b → b = a := by
          intro n a b ha hb e
          have := congrArg ofLE e
          rw [ofLE_toLE ha, ofLE_toLE hb] at this
          exact this.symm
        have l1 : Js.sideNumber p.side < 256 := by cases p.side <;> decide
        have l2 : Js.boolNumber p.postOnly < 256 := by cases p.postOnly <;> decide
        have l3 : Js.boolNumber p.postAllowed < 256 := by cases p.postAllowed <;> decide
        have l4 : Js.selfTradeNumber p.selfTradeBehavior < 256 := by cases p.selfTradeBehavior <;> decide
        exact ⟨key r1 b1 f1, key r2 b2 f2, key r3 b3 f3, key r4 l1 f4, key r5 b4 f5, key r6 l2 f7, key r7 l3 f8,
          key r8 l4 f9, f6.symm⟩
      | _ => exact absurd e1 (by simp [Wire.number])
    · exact absurd (List.cons.inj h).1 (by decide)
  · rintro ⟨p, rfl, rfl, rfl, rfl, rfl, rfl, rfl, rfl, rfl, hcb⟩
    rw [← Wire.C45_decode (.newOrder p) ⟨r1, r2, r3, r5⟩]
    congr 1
    show Js.Ix.serialize _ = 1 :: encNewOrder p
    unfold encNewOrder
    rw [hcb, enc_bool, enc_bool, enc_side, enc_selfTrade]
    rfl

/-- C58. So the stand-alone program, whose callback infos are 32 bytes, refuses every `newOrder` of the client whose
callback info does not have 28 bytes, and in the ones it accepts the first four bytes of the callback info are the
length 28. -/
theorem C58_newOrder_witness {mb mq lp side ml po pa stb : Nat} {cb : Bytes}
    (hr : mb < 2 ^ 64 ∧ mq < 2 ^ 64 ∧ lp < 2 ^ 64 ∧ side < 256 ∧ ml < 2 ^ 64 ∧ po < 256 ∧ pa < 256 ∧ stb < 256) (ix : Ix Bytes32)
    (h : decodeIx Bytes32 (Js.Ix.newOrder mb mq lp side ml cb po pa stb).serialize = .ok ix) :
    cb.length = 28 ∧ ∃ p, ix = .newOrder p ∧ p.callbackInfo.1 = [28, 0, 0, 0] ++ cb := by
  obtain ⟨p, rfl, -, -, -, -, -, -, -, -, hc⟩ := (C58_newOrder hr ix).1 h
  change p.callbackInfo.1 = _ at hc
  have hl : cb.length = 28 := by
    have := congrArg List.length hc
    rw [p.callbackInfo.2, List.length_append, toLE_length] at this
    omega
  refine ⟨hl, p, rfl, ?_⟩
  rw [hc, hl]; rfl

/-- C58. The client's `createMarket` data is that of the program with 48 bytes before and 8 bytes after the parameters. -/
theorem C58_createMarket_data {ca : Bytes} (hca : ca.length = 32) (cil cidl mb tick cr : Nat) :
    ∃ pre post params, pre.length = 48 ∧ post.length = 8 ∧
      (Js.Ix.createMarket ca cil cidl mb tick cr).serialize = 0 :: (pre ++ params ++ post) ∧
      (mb < 2 ^ 64 → tick < 2 ^ 64 → decodeIx C (0 :: params) = .ok (.createMarket ⟨mb, tick⟩)) :=
  ⟨ca ++ (toLE 8 cil ++ toLE 8 cidl), toLE 8 cr, toLE 8 mb ++ toLE 8 tick, by simp [hca, toLE_length],
    toLE_length 8 cr, by simp [Js.Ix.serialize, List.append_assoc],
    fun h1 h2 => Wire.C45_decode (.createMarket ⟨mb, tick⟩) ⟨h1, h2⟩⟩

/-- C58. The program refuses every `createMarket` of the client, in every world and with any accounts: its data is
longer than the program's parameters. -/
theorem C58_createMarket_witness (ca : Bytes) (cil cidl mb tick cr : Nat) (w : World) (accounts : List Pubkey)
    (x : Option OrderSummary × World) :
    Processor.processInstruction env C w accounts (Js.Ix.createMarket ca cil cidl mb tick cr).serialize ≠ .ok x := by
  obtain ⟨r, w'⟩ := x
  intro h
  obtain ⟨ix, hix, -⟩ := processInstruction_ok_iff.1 h
  obtain ⟨hin, h | ⟨-, r, h⟩⟩ := Wire.C45_exact hix
  · obtain ⟨e1, e2⟩ := List.cons.inj h
    cases ix with
    | createMarket p =>
      have := congrArg List.length e2
      unfold Ix.params CreateParams.enc at this
      simp only [List.length_append, toLE_length] at this
      omega
    | _ => exact absurd e1 (by simp [Wire.number])
  · exact absurd (List.cons.inj h).1 (by decide)

/-- C58. The accounts the client passes are read by the program as the ones meant; but the account the program takes as
the target of the lamports when it closes a market is the client's `authority`. -/
theorem C58_accounts (market queue bids asks authority target : Pubkey) (i : Js.Ix) :
    match i with
    | .createMarket .. | .newOrder .. | .cancelOrder _ | .massCancelOrder _ =>
      BookAccounts.parse (i.keys market queue bids asks authority target) = .ok ⟨market, queue, bids, asks⟩
    | .consumeEvents _ => parseConsume (i.keys market queue bids asks authority target) = .ok (market, queue)
    | .closeMarket => parseClose (i.keys market queue bids asks authority target) =
        .ok (⟨market, queue, bids, asks⟩, authority) := by
  cases i <;> rfl

/-- C58. When the client's `closeMarket` succeeds, the lamports go to `authority`; the balance of the account given as
their target does not change. -/
theorem C58_closeMarket_witness {market queue bids asks authority target : Pubkey} {r : Option OrderSummary}
    (ht : target ∉ [market, queue, bids, asks, authority])
    (h : Processor.processInstruction env C w (Js.Ix.closeMarket.keys market queue bids asks authority target)
      Js.Ix.closeMarket.serialize = .ok (r, w')) :
    (w' authority).lamports = (w authority).lamports + ((w market).lamports + (w bids).lamports + (w asks).lamports +
      (w queue).lamports) ∧ (w' target).lamports = (w target).lamports := by
  obtain ⟨ix, hix, hran⟩ := processInstruction_ok_iff.1 h
  obtain rfl : Ix.closeMarket = ix := Except.ok.inj (C58_encodings.2.2.2.symm.trans hix)
  cases hran with
  | close hp hx =>
    obtain ⟨rfl, rfl⟩ := Prod.mk.inj (Except.ok.inj hp)
    obtain ⟨h1, -, -, -, -, h2, -⟩ := Accounts.C37_lamports hx
    simp only [List.mem_cons, List.not_mem_nil, or_false, not_or] at ht
    exact ⟨h1, h2 _ ht.2.2.2.2 ht.1 ht.2.2.1 ht.2.2.2.1 ht.2.1⟩

/-! ### Concrete cases -/

section
open DemoChain (w1 w2 w3 w4 w5 w6 w7 w8 key after onChain_after accounts newOrder consume create onChain_w2 onChain_w3
  onChain_w4 onChain_w7 onChain_w8 succeeds)
open Accounts (demo_isMarket demo_load demo_ok)

/-- A second order at the price of the first. -/
def twoAsks : World := after w3 accounts (newOrder .ask 4 10 1)

theorem onChain_twoAsks : OnChain DemoChain.env Bytes32 DemoChain.R twoAsks :=
  onChain_after onChain_w3 (by decide +kernel) (by decide +kernel)

/-- The slab of a side in the demo. -/
def demoSlab (w : World) (side : Side) : Res Js.Slab := Js.Slab.deserialize (w (slabKey (stateAt w (key 1)) side)).data 32

example := fun m hm => C59_slab (m := m) onChain_twoAsks (k := key 1) (by show key 1 ≠ key 6; decide +kernel)
  (demo_isMarket (by decide +kernel)) hm .ask (n := 2) (by decide) (by decide +kernel)

example := fun m hm => C51_levels (m := m) onChain_twoAsks (k := key 1) (by show key 1 ≠ key 6; decide +kernel)
  (demo_isMarket (by decide +kernel)) hm .ask (n := 2) (by decide) (by decide +kernel)

example : ∃ m, loadMarket Bytes32 twoAsks (key 1) = .ok m := demo_load (by decide +kernel)

/-- Both orders are shown, and make up one level. -/
example : ((demoSlab twoAsks .ask).bind (·.items false)).toOption =
      some [⟨⟨10 * 2 ^ 96, 5⟩, List.replicate 32 1⟩, ⟨⟨10 * 2 ^ 96 + 1, 4⟩, List.replicate 32 1⟩] ∧
    ((demoSlab twoAsks .ask).bind (·.getL2DepthJS 1 true)).toOption = some [⟨9, 10 * 2 ^ 32⟩] ∧
    ((demoSlab twoAsks .ask).bind (·.getNodeByKey (10 * 2 ^ 96 + 1))).toOption = some (some ⟨10 * 2 ^ 96 + 1, 4⟩) := by
  decide +kernel

example := C59_market (env := DemoChain.env) (w := w4) (k := key 1) (demo_isMarket (by decide +kernel))
example := (C59_sizes (C := Bytes32) 2).1 (by decide)

/-- C51 does not hold for `find_l2_depth` of `js/wasm`: it stops at the first order of the last level, whose size is
then too small. Here the two orders of `twoAsks` as slots of a tree. -/
theorem C51_wasm_witness :
    (Wasm.l2Loop ([.ok (.inner 127 (10 * 2 ^ 96) 1 2), .ok (.leaf (10 * 2 ^ 96) [] 5),
      .ok (.leaf (10 * 2 ^ 96 + 1) [] 4)].getD · (.error .panic)) 1 true 9 [0] []).toOption =
      some [⟨5, 10 * 2 ^ 32⟩] ∧
    ((demoSlab twoAsks .ask).bind (·.getL2DepthJS 1 true)).toOption = some [⟨9, 10 * 2 ^ 32⟩] := by decide +kernel

/-- Bids in an account of 216 bytes: more than for two orders, less than for three. -/
def oddGenesis : World := fun k => if k = key 3 then ⟨key 9, 3000, List.replicate 216 0⟩ else DemoChain.genesis k
def odd1 : World := after oddGenesis accounts create
def odd2 : World := after odd1 accounts (newOrder .bid 4 9 3)

theorem onChain_odd2 : OnChain DemoChain.env Bytes32 DemoChain.R odd2 := by
  refine onChain_after (onChain_after ⟨_, ?_, .refl⟩ (by decide +kernel) (by decide +kernel)) (by decide +kernel) (by decide +kernel)
  intro k hk
  unfold oddGenesis
  split
  · exact DemoChain.fresh_zeros _ (by decide)
  · exact DemoChain.genesis_ok k (by unfold oddGenesis at hk; rw [if_neg (by assumption)] at hk; exact hk)

/-- C59 does not hold for slab accounts of other sizes, which `create_market` accepts: the client divides the account
differently, and shows the one bid of `odd2` with a callback info that is not its own (the program reads user 3). -/
theorem C59_odd_size_witness : OnChain DemoChain.env Bytes32 DemoChain.R odd2 ∧
    ((loadMarket Bytes32 odd2 (key 1)).toOption.map (fun m => (resting m .bid).map (fun o => o.cb.1)) =
      some [List.replicate 32 3]) ∧
    ((demoSlab odd2 .bid).bind (·.items true)).toOption.map (fun l => l.map Js.LeafRef.callbackInfo) =
      some [List.replicate 12 3 ++ List.replicate 20 0] := ⟨onChain_odd2, by decide +kernel, by decide +kernel⟩

/-- The event queue of the first market. -/
def demoQueue (w : World) : Res Js.EventQueue := Js.EventQueue.parse 32 (w (stateAt w (key 1)).eventQueue).data

example := fun m hm => C52_events (m := m) onChain_w4 (k := key 1) (by show key 1 ≠ key 6; decide +kernel)
  (demo_isMarket (by decide +kernel)) hm

example : field (w4 (stateAt w4 (key 1)).eventQueue).data 8 8 = 0 ∧
    ((demoQueue w4).bind (·.parseFill none)).toOption =
      some [.fill 0 30 (10 * 2 ^ 96) 3 (List.replicate 32 1) (List.replicate 32 2)] := by decide +kernel

/-- The first fill consumed, another one made. -/
def moved : World := after (after w4 accounts (consume 1)) accounts (newOrder .bid 1 10 2)

theorem onChain_moved : OnChain DemoChain.env Bytes32 DemoChain.R moved :=
  onChain_after (onChain_after onChain_w4 (by decide +kernel) (by decide +kernel)) (by decide +kernel) (by decide +kernel)

/-- C52 does not hold of `parseFill` once events were consumed: it shows the fill consumed before, not the pending one.
Nor does `peekAt` stop at the number of pending events: past it, it shows events long gone. -/
theorem C52_parseFill_witness : OnChain DemoChain.env Bytes32 DemoChain.R moved ∧
    (loadMarket Bytes32 moved (key 1)).toOption.map (fun m => (pending m).map Event.base) = some [1] ∧
    ((demoQueue moved).bind (·.peekAt 0)).toOption =
      some (.fill 0 10 (10 * 2 ^ 96) 1 (List.replicate 32 1) (List.replicate 32 2)) ∧
    ((demoQueue moved).bind (·.parseFill none)).toOption =
      some [.fill 0 30 (10 * 2 ^ 96) 3 (List.replicate 32 1) (List.replicate 32 2)] ∧
    ((demoQueue moved).bind (·.peekAt 4)).toOption =
      some (.fill 0 30 (10 * 2 ^ 96) 3 (List.replicate 32 1) (List.replicate 32 2)) :=
  ⟨onChain_moved, by decide +kernel, by decide +kernel, by decide +kernel, by decide +kernel⟩

/-- C58: data the stand-alone program accepts, with a callback info of 28 bytes, and data it refuses. -/
example : ∃ ix, decodeIx Bytes32 (Js.Ix.newOrder 5 6 7 1 8 (List.replicate 28 9) 0 1 2).serialize = .ok ix :=
  ⟨_, (C58_newOrder (by decide) (.newOrder ⟨5, 6, 7, .ask, 8, ⟨[28, 0, 0, 0] ++ List.replicate 28 9, rfl⟩, false, true,
    .abortTransaction⟩)).2 ⟨_, rfl, rfl, rfl, rfl, rfl, rfl, rfl, rfl, rfl, rfl⟩⟩

example : succeeds (decodeIx Bytes32 (Js.Ix.newOrder 5 6 7 1 8 (List.replicate 32 9) 0 1 2).serialize) = false := by
  decide +kernel

/-- C58: closing the emptied first market with the client, as authority 7 and to account 5. -/
example : succeeds (Processor.processInstruction DemoChain.env Bytes32 w7
    (Js.Ix.closeMarket.keys (key 1) (key 2) (key 3) (key 4) (key 7) (key 5)) Js.Ix.closeMarket.serialize) = true ∧
    key 5 ∉ [key 1, key 2, key 3, key 4, key 7] := by decide +kernel

/-! Theorems applied that are not above. -/

example := fun m hm => C51_levels_meaning (onChain_twoAsks.inv.reach (key 1) (by show key 1 ≠ key 6; decide +kernel)
  (demo_isMarket (by decide +kernel)) m (loadMarket_ok_iff.1 hm)) .ask false
example := C58_createMarket_data (C := Bytes32) (ca := List.replicate 32 3) (by decide) 32 32 10 100 0

end

end Client
end AOB
