import Verif.Spec.RawBytes
import Verif.Props.Client
/-
The raw bytes of the accounts of every market on the chain (C73).
-/
namespace AOB
namespace RawBytes
theorem chain_first {α : Type} {next : α → Nat} {xs : List α} {hd : Nat} {free : List Nat} (h : Chain next xs hd free) :
    ∀ s, free.head? = some s → hd = s := by
  intro s hs
  cases free with
  | nil => cases hs
  | cons f fs => cases hs; exact h.1

theorem chain_next {α : Type} {next : α → Nat} {xs : List α} {free : List Nat} {hd : Nat} (h : Chain next xs hd free) :
    ∀ i (hi : i + 1 < free.length), ∃ n, xs[free[i]]? = some n ∧ next n = free[i + 1] := by
  induction free generalizing hd with
  | nil => intro i hi; simp at hi
  | cons f fs ih =>
    obtain ⟨rfl, n, hn, hc⟩ := h
    intro i hi
    cases i with
    | zero =>
      cases fs with
      | nil => simp at hi
      | cons g gs => exact ⟨n, hn, hc.1⟩
    | succ i => exact ih hc i (by simpa using hi)

theorem free_bytes {α : Type} {next : α → Nat} {xs : List α} {len hd bump : Nat} {used : List Nat} {d : Bytes}
    {hdr off size max : Nat} (h : Alloc next xs len hd bump used) (h1 : part d hdr 4 = toLE 4 len)
    (h2 : part d (hdr + 4) 4 = toLE 4 hd) (h3 : part d (hdr + 8) 4 = toLE 4 bump) (hmax : xs.length = max)
    (hlink : ∀ i n, xs[i]? = some n → part d (off + i * size) 4 = toLE 4 (next n)) :
    ∃ free, FreeBytes d hdr off size max used free := by
  have hlen := h.length
  obtain ⟨free, rfl, hc, hp, hb⟩ := h
  refine ⟨free, h1, by rw [hlen, h3], by rw [hlen]; exact hp, by omega, ?_, ?_⟩
  · intro s hs
    rw [h2, chain_first hc s hs]
  · intro i hi
    obtain ⟨n, hn, e⟩ := chain_next hc i hi
    rw [hlink _ n hn, e]

variable {C : Type} [CallbackInfo C] [Pod C] [Borsh C] {env : Env} {R : Pubkey → Prop} {w : World} {k : Pubkey} {m : Market C}

omit [CallbackInfo C] [Borsh C] in
theorem part_events {d : Bytes} {q : EventQueue C} (h : QueueParts C d q) {i : Nat} {e : FillEvent}
    (he : q.events[i]? = some e) : part d (32 + i * 40) 40 = e.toBytes := by
  obtain ⟨g1, g2⟩ := castSlice_get h.events he
  have hl := queue_len_eq (C := C) h.long
  rw [List.length_take] at g2
  have e1 : (((d.drop 32).take (queueCap C d.length * 40)).drop (i * 40)).take 40 = part d (32 + i * 40) 40 := by
    unfold part
    rw [List.drop_take, List.drop_drop, List.take_take, Nat.min_eq_left (by omega)]
  rw [e1] at g1
  rw [g1, FillEvent.toBytes_ofBytes]
  unfold part
  rw [List.length_take, List.length_drop]
  rw [List.length_drop] at g2
  omega

omit [CallbackInfo C] [Borsh C] in
theorem part_infos {d : Bytes} {cs : List C} {off : Nat} (h : castSlice (Pod.size C) Pod.ofBytes (d.drop off) = .ok cs)
    {i : Nat} {c : C} (hc : cs[i]? = some c) : part d (off + i * Pod.size C) (Pod.size C) = Pod.toBytes c := by
  obtain ⟨g1, g2⟩ := castSlice_get h hc
  rw [List.drop_drop] at g1
  rw [g1, Pod.toBytes_ofBytes]
  · rfl
  · rw [List.length_drop, Nat.add_mul, Nat.one_mul] at g2
    have := Pod.size_pos (C := C)
    rw [List.length_take, List.length_drop]
    omega

omit [CallbackInfo C] [Borsh C] [Pod C] in
theorem toBytes_fill (f : FillEvent) (side : Side) (id base quote : Nat)
    (h : f = { tag := TAG_FILL, takerSide := side.toU8, padding := List.replicate 6 0,
               quoteSize := quote, makerOrderId := id, baseSize := base }) (a b : C) :
    f.toBytes = eventBytes (.fill side id base quote a b) := by
  subst h
  unfold FillEvent.toBytes eventBytes
  cases side <;> simp [toLE, TAG_FILL, Side.toU8, sideByte, List.replicate]

omit [CallbackInfo C] [Borsh C] [Pod C] in
theorem toBytes_out (f : FillEvent) (side : Side) (id base : Nat)
    (h : f.castOut = { tag := TAG_OUT, side := side.toU8, padding := List.replicate 14 0,
                       orderId := id, baseSize := base }) (a : C) :
    f.toBytes = eventBytes (.out side id base a) := by
  have e : f.toBytes = f.castOut.toBytes := by
    simp [FillEvent.toBytes, FillEvent.castOut, OutEvent.toBytes, List.append_assoc]
  rw [e, h]
  unfold OutEvent.toBytes eventBytes
  cases side <;> simp [toLE, TAG_OUT, Side.toU8, sideByte, List.replicate]

omit [CallbackInfo C] [Borsh C] [Pod C] in
theorem getEvent_bytes {q : EventQueue C} {slot : Nat} {e : Event C} (h : q.getEvent slot = .ok e.toRef) :
    ∃ f, q.events[slot]? = some f ∧ f.toBytes = eventBytes e ∧
      ∀ j (hj : j < (eventInfos e).length), q.callbackInfos[2 * slot + j]? = some (eventInfos e)[j] := by
  unfold EventQueue.getEvent at h
  obtain ⟨f, hf, h⟩ := bind_ok h
  refine ⟨f, idx_ok.1 hf, ?_⟩
  split at h
  · obtain ⟨a, ha, h⟩ := bind_ok h
    obtain ⟨b, hb, h⟩ := bind_ok h
    cases e with
    | fill side id base quote x y =>
      have h := Except.ok.inj h
      unfold Event.toRef at h
      injection h with h1 h2 h3
      subst h2 h3
      refine ⟨toBytes_fill f side id base quote h1 a b, ?_⟩
      intro j hj
      have hj : j < 2 := hj
      match j, hj with
      | 0, _ => exact idx_ok.1 ha
      | 1, _ => exact idx_ok.1 hb
    | out side id base x => cases Except.ok.inj h
  · split at h
    · obtain ⟨a, ha, h⟩ := bind_ok h
      cases e with
      | fill side id base quote x y => cases Except.ok.inj h
      | out side id base x =>
        have h := Except.ok.inj h
        unfold Event.toRef at h
        injection h with h1 h2
        subst h2
        refine ⟨toBytes_out f side id base h1 a, ?_⟩
        intro j hj
        have hj : j < 1 := hj
        match j, hj with
        | 0, _ => exact idx_ok.1 ha
    · cases h

theorem queue_bytes (hw : OnChain env C R w) (hR : ¬ R k) (hM : IsMarket env w k) (hm : loadMarket C w k = .ok m) :
    QueueBytes (w (stateAt w k).eventQueue).data m.queue.events.length m.queue.header.head m.queue.header.seqNum (pending m) := by
  have hL := loadMarket_ok_iff.1 hm
  have hlink := hw.inv.link k hR hM
  obtain ⟨a, ha⟩ := (Chain.C54_reachable hw hR hM hm).known
  have hq := ha.rep.queue
  rw [← ha.rep.pending] at hq
  have hT := hw.tidy _ hlink.noRegQ hlink.ownerQ
  have hslack := hT.queue (byte0_of_field (Nat.le_trans (by decide) hL.queue.long) hlink.tagQ)
  have hlong := hL.queue.long
  have hlen := queue_len_eq (C := C) hlong
  have hQ := hL.queue
  have htag := hL.queueTag
  generalize (w (stateAt w k).eventQueue).data = d at *
  obtain ⟨l1, -, -⟩ := hQ.lengths
  unfold queueSlack at hslack
  rw [hslack, Nat.add_zero, ← l1] at hlen
  obtain ⟨hinv, hcount, hget⟩ := hq
  rw [List.length_map] at hcount
  have hslot : ∀ i (h : i < (pending m).length),
      m.queue.getEvent ((m.queue.header.head + i) % m.queue.events.length) = .ok ((pending m)[i].toRef) := by
    intro i h
    have := hget i (by rwa [List.length_map])
    rwa [List.getElem_map] at this
  refine ⟨hlen, hinv.head, ?_, ?_, ?_, ?_⟩
  · rw [hcount]; exact hinv.count
  · have e1 : toLE 8 129 = part d 0 8 := by
      rw [← htag]; exact toLE_field _ _ _ (by omega)
    have e2 : m.queue.header.toBytes = part d 8 24 := by
      rw [hQ.header]
      exact EventQueueHeader.toBytes_ofBytes _ (by rw [List.length_take, List.length_drop]; omega)
    unfold EventQueueHeader.toBytes at e2
    rw [hcount, e1, List.append_assoc, List.append_assoc, e2]
    exact (List.take_add (i := 8) (j := 24)).trans rfl
  · intro i h
    obtain ⟨f, hf, hb, -⟩ := getEvent_bytes (hslot i h)
    rw [part_events hQ hf, hb]
  · intro i h j hj
    obtain ⟨f, -, -, hi⟩ := getEvent_bytes (hslot i h)
    rw [l1] at *
    exact part_infos hQ.infos (hi j hj)

/-- C73. The event queue account of a market on the chain is, byte by byte, the header, the pending events in the ring
from `head` on, and their callback infos. -/
theorem C73_queue_bytes (hw : OnChain env C R w) (hR : ¬ R k) (hM : IsMarket env w k) (hm : loadMarket C w k = .ok m) :
    ∃ cap head, QueueBytes (w (stateAt w k).eventQueue).data cap head m.queue.header.seqNum (pending m) :=
  ⟨_, _, queue_bytes hw hR hM hm⟩

omit [CallbackInfo C] [Borsh C] in
/-- C73. The market account: tag, the three account addresses, `min_base_order_size` and `tick_size`. -/
theorem C73_market_bytes (hm : loadMarket C w k = .ok m) :
    (w k).data = toLE 8 128 ++ (stateAt w k).eventQueue.1 ++ (stateAt w k).bids.1 ++ (stateAt w k).asks.1 ++
      toLE 8 m.minBaseOrderSize ++ toLE 8 m.tickSize := by
  have hL := loadMarket_ok_iff.1 hm
  have hl := hL.len
  rw [hL.minBase, hL.tick, ← hL.tag, toLE_field _ _ _ (by omega)]
  have := MarketState.toBytes_ofBytes ((w k).data.drop 8) (by rw [List.length_drop]; omega)
  change (stateAt w k).toBytes = _ at this
  unfold MarketState.toBytes at this
  simp only [List.append_assoc]
  rw [this]
  simp

omit [CallbackInfo C] [Borsh C] in
theorem part_leaves {d : Bytes} {s : Slab C} (h : SlabParts C d s) {i : Nat} {n : LeafNode}
    (hn : s.leafNodes[i]? = some n) : part d (40 + i * 24) 24 = n.toBytes := by
  obtain ⟨g1, g2⟩ := castSlice_get h.leaves hn
  have hl := slab_len_eq (C := C) h.long
  rw [List.length_take] at g2
  have e1 : (((d.drop 40).take ((slabCap C d.length + 1) * 24)).drop (i * 24)).take 24 = part d (40 + i * 24) 24 := by
    unfold part
    rw [List.drop_take, List.drop_drop, List.take_take, Nat.min_eq_left (by omega)]
  rw [e1] at g1
  rw [g1, LeafNode.toBytes_ofBytes]
  unfold part
  rw [List.length_take, List.length_drop]
  rw [List.length_drop] at g2
  omega

omit [CallbackInfo C] [Borsh C] in
/-- A slab account whose slab represents the entries `es`, whatever their order. -/
theorem slab_bytes {d : Bytes} {s : Slab C} {t : AccountTag} (h : SlabParts C d s) (htag : field d 0 8 = t.toNat)
    {es es' : List (Entry C)} (hr : Rep s es) (hp : es'.Perm es) :
    SlabBytes d t.toNat (slabCap C d.length + 1) (slabSlack C d.length) (es'.map Entry.slot) (es'.map Entry.order) := by
  obtain ⟨ot, hr, rfl⟩ := hr
  have hlong := h.long
  have hl := slab_len_eq (C := C) hlong
  obtain ⟨l1, l2, -, l4⟩ := h.lengths
  have hmem : ∀ e ∈ es', _ := fun e he => hr.ents_mem e (hp.mem_iff.1 he)
  refine ⟨?_, ?_, by omega, by simp, ?_, ?_, ?_, ?_, ?_, ?_⟩
  · rw [Nat.add_sub_cancel]; omega
  · exact Nat.mod_lt _ (by omega)
  · intro x hx
    obtain ⟨e, he, rfl⟩ := List.mem_map.1 hx
    rw [← l1]
    exact hr.leafAlloc.used_lt _ (List.mem_map.2 ⟨e, hp.mem_iff.1 he, rfl⟩)
  · exact (hp.map Entry.slot).nodup_iff.2 hr.leafAlloc.nodup
  · rw [← htag, toLE_field _ _ _ (by omega)]; rfl
  · rw [List.length_map, hp.length_eq, ← hr.count, h.header]
    show _ = toLE 4 (field ((d.drop 8).take 32) 28 4)
    rw [field_seg (by omega), toLE_field _ _ _ (by omega)]; rfl
  · intro i hi hi'
    rw [List.length_map] at hi
    have he := (hmem es'[i] (List.getElem_mem hi)).2.1
    simp only [List.getElem_map]
    rw [part_leaves h he]
    rfl
  · intro i hi hi'
    rw [List.length_map] at hi
    have he := (hmem es'[i] (List.getElem_mem hi)).2.2
    simp only [List.getElem_map]
    rw [Nat.add_sub_cancel]
    exact part_infos h.infos he

omit [CallbackInfo C] [Borsh C] in
theorem part_inners {d : Bytes} {s : Slab C} (h : SlabParts C d s) {i : Nat} {n : InnerNode}
    (hn : s.innerNodes[i]? = some n) : part d (40 + (slabCap C d.length + 1) * 24 + i * 32) 32 = n.toBytes := by
  obtain ⟨g1, g2⟩ := castSlice_get h.inners hn
  have hl := slab_len_eq (C := C) h.long
  rw [List.length_take] at g2
  have e1 : (((d.drop (40 + (slabCap C d.length + 1) * 24)).take (slabCap C d.length * 32)).drop (i * 32)).take 32 =
      part d (40 + (slabCap C d.length + 1) * 24 + i * 32) 32 := by
    unfold part
    rw [List.drop_take, List.drop_drop, List.take_take, Nat.min_eq_left (by omega)]
  rw [e1] at g1
  rw [g1, InnerNode.toBytes_ofBytes]
  unfold part
  rw [List.length_take, List.length_drop]
  rw [List.length_drop] at g2
  omega

theorem part_part (d : Bytes) (a n b m : Nat) (h : b + m ≤ n) : part (part d a n) b m = part d (a + b) m := by
  unfold part
  rw [List.drop_take, List.drop_drop, List.take_take, Nat.min_eq_left (by omega)]

theorem toLE_length (n x : Nat) : (toLE n x).length = n := by
  induction n generalizing x with
  | zero => rfl
  | succ n ih => simp [toLE, ih]

/-- The first bytes of a little-endian number are the number modulo. -/
theorem toLE_take (m n x : Nat) (h : m ≤ n) : (toLE n x).take m = toLE m (x % 256 ^ m) := by
  induction m generalizing n x with
  | zero => simp [toLE]
  | succ m ih =>
    obtain ⟨n, rfl⟩ : ∃ k, n = k + 1 := ⟨n - 1, by omega⟩
    simp only [toLE, List.take_succ_cons]
    have h1 : x % 256 ^ (m + 1) % 256 = x % 256 := by
      rw [Nat.pow_succ, Nat.mul_comm, Nat.mod_mul_right_mod]
    have h2 : x % 256 ^ (m + 1) / 256 = x / 256 % 256 ^ m := by
      rw [Nat.pow_succ, Nat.mul_comm, Nat.mod_mul_right_div_self]
    rw [ih n _ (by omega), h2]
    congr 1
    apply UInt8.toNat_inj.1
    simp only [UInt8.toNat_ofNat']
    omega

theorem agree_div {p a b : Nat} (h : Agree p a b) : a / 2 ^ (128 - p) = b / 2 ^ (128 - p) := by
  apply Nat.eq_of_testBit_eq
  intro i
  rw [Nat.testBit_div_two_pow, Nat.testBit_div_two_pow]
  exact h _ (by omega)

omit [CallbackInfo C] [Borsh C] in
theorem tree_bytes {d : Bytes} {s : Slab C} (h : SlabParts C d s) (t : Tree C)
    (hm : t.Mem s.leafNodes s.innerNodes s.callbackInfos) (hw : t.Wf) :
    TreeBytes d (slabCap C d.length + 1) t.handle (t.ents.map fun e => (e.slot, e.key)) t.inners := by
  obtain ⟨l1, l2, -, -⟩ := h.lengths
  induction t with
  | leaf e =>
    obtain ⟨h1, h2, -⟩ := hm
    refine .leaf h1 (by rw [← l1]; exact lt_of_getElem? h2) hw ?_
    have := part_leaves h h2
    show part d (40 + e.slot * 24) 16 = _
    rw [← Nat.add_zero (40 + e.slot * 24), ← part_part d _ 24 0 16 (by omega), this]
    simp [part, LeafNode.toBytes, toLE_length]
  | node i k p l r ihl ihr =>
    obtain ⟨h1, h2, h3, h4⟩ := hm
    obtain ⟨w1, w2, w3, w4, w5, w6⟩ := hw
    have hi := lt_of_getElem? h2
    have hb := part_inners h h2
    simp only [Tree.ents, List.map_append, Tree.inners, Tree.handle]
    refine .node (key := k) (plen := p) (l := l.handle) (r := r.handle) h1 (by omega) w1 ?_ ?_ ?_ (ihl h3 w5) (ihr h4 w6)
    · rw [hb]; simp [InnerNode.toBytes]
    · intro x hx
      obtain ⟨e, he, rfl⟩ := List.mem_map.1 hx
      exact ⟨agree_div (w3 e he).1, (w3 e he).2⟩
    · intro x hx
      obtain ⟨e, he, rfl⟩ := List.mem_map.1 hx
      exact ⟨agree_div (w4 e he).1, (w4 e he).2⟩

omit [CallbackInfo C] [Borsh C] in
theorem slab_tree {d : Bytes} {s : Slab C} (h : SlabParts C d s) {es : List (Entry C)} (hr : Rep s es) :
    SlabTree d (slabCap C d.length + 1) (es.map fun e => (e.slot, e.key)) := by
  obtain ⟨ot, hr, rfl⟩ := hr
  have hlong := h.long
  obtain ⟨l1, l2, -, -⟩ := h.lengths
  have hh : ∀ off, off + 4 ≤ 32 → part d (8 + off) 4 = toLE 4 (field ((d.drop 8).take 32) off 4) := by
    intro off ho
    rw [field_seg (by omega), toLE_field _ _ _ (by omega)]; rfl
  have hH := h.header
  refine ⟨List.pairwise_map.2 hr.sorted, oinners ot, ?_, ?_, ?_⟩
  · cases ot with
    | none => exact .inl ⟨rfl, rfl⟩
    | some t =>
      refine .inr ⟨t.handle, ?_, tree_bytes h t hr.mem hr.wf⟩
      rw [← hr.root_eq, hH]
      exact hh 24 (by omega)
  · have hA := hr.leafAlloc
    rw [show (oents ot).map Entry.slot = ((oents ot).map fun e => (e.slot, e.key)).map Prod.fst by
      rw [List.map_map]; rfl] at hA
    refine free_bytes hA ?_ ?_ ?_ l1 ?_
    · rw [hH]; exact hh 0 (by omega)
    · rw [hH]; exact hh 4 (by omega)
    · rw [hH]; exact hh 8 (by omega)
    · intro i n hn
      rw [show 40 + 16 + i * 24 = 40 + i * 24 + 16 by omega, ← part_part d _ 24 16 4 (by omega), part_leaves h hn]
      unfold part LeafNode.toBytes
      rw [List.drop_left' (toLE_length 16 _), toLE_take 4 8 _ (by omega)]
      rfl
  · refine free_bytes hr.innerAlloc ?_ ?_ ?_ (by omega) ?_
    · rw [hH]; exact hh 12 (by omega)
    · rw [hH]; exact hh 16 (by omega)
    · rw [hH]; exact hh 20 (by omega)
    · intro i n hn
      rw [show 40 + (slabCap C d.length + 1) * 24 + 16 + i * 32 = 40 + (slabCap C d.length + 1) * 24 + i * 32 + 16 by omega,
        ← part_part d _ 32 16 4 (by omega), part_inners h hn]
      unfold part InnerNode.toBytes
      rw [List.drop_left' (toLE_length 16 _), List.take_append_of_le_length (by rw [toLE_length]; omega),
        toLE_take 4 8 _ (by omega)]
      rfl

/-- C73. The slab accounts of a market on the chain are, byte by byte: tag and number of orders, for each resting
order, in a slot of its own, the id and the quantity in the leaf array and the callback info in the info array; the
inner nodes are a tree with these leaves in the order of their ids, and the slots that are not in use are in the two free
lists or have never been used. -/
theorem C73_slab_bytes (hw : OnChain env C R w) (hR : ¬ R k) (hM : IsMarket env w k) (hm : loadMarket C w k = .ok m) :
    (∃ cap extra slots, SlabBytes (w (stateAt w k).bids).data 130 cap extra slots (resting m .bid) ∧
      SlabTree (w (stateAt w k).bids).data cap (slots.zip ((resting m .bid).map Order.id)).reverse) ∧
    (∃ cap extra slots, SlabBytes (w (stateAt w k).asks).data 131 cap extra slots (resting m .ask) ∧
      SlabTree (w (stateAt w k).asks).data cap (slots.zip ((resting m .ask).map Order.id))) := by
  have hL := loadMarket_ok_iff.1 hm
  have hlink := hw.inv.link k hR hM
  obtain ⟨a, ha⟩ := (Chain.C54_reachable hw hR hM hm).known
  have hz : ∀ es : List (Entry C), (es.map Entry.slot).zip ((es.map Entry.order).map Order.id) =
      es.map fun e => (e.slot, e.key) := by
    intro es
    induction es with
    | nil => rfl
    | cons e es ih => rw [List.map_cons, List.map_cons, List.map_cons, List.zip_cons_cons, ih]; rfl
  constructor
  · obtain ⟨es, hr, he⟩ := ha.rep.tree .bid
    have hT := (hw.tidy _ hlink.noRegB hlink.ownerB).bids hL.bidsTag
    have h := slab_bytes (t := .bids) hL.bids hT hr (List.reverse_perm es)
    have hes : es.reverse.map Entry.order = resting m .bid := by
      rw [List.map_reverse, he, show (prio .bid (a.orders .bid)).reverse = a.orders .bid from
        List.reverse_reverse _, ← ha.rep.resting]
    rw [hes] at h
    refine ⟨_, _, _, h, ?_⟩
    rw [← hes, hz, ← List.map_reverse, List.reverse_reverse]
    exact slab_tree hL.bids hr
  · obtain ⟨es, hr, he⟩ := ha.rep.tree .ask
    have hT := (hw.tidy _ hlink.noRegA hlink.ownerA).asks hL.asksTag
    have h := slab_bytes (t := .asks) hL.asks hT hr (List.Perm.refl es)
    have hes : es.map Entry.order = resting m .ask := by
      rw [he, show prio .ask (a.orders .ask) = a.orders .ask from rfl, ← ha.rep.resting]
    rw [hes] at h
    refine ⟨_, _, _, h, ?_⟩
    rw [← hes, hz]
    exact slab_tree hL.asks hr

/-! ### A market on the chain: one event consumed, one pending in slot 1 of the ring -/
section
open DemoChain (key)
open Client (moved onChain_moved)
open Accounts (demo_isMarket)

example := fun m hm => C73_queue_bytes (m := m) onChain_moved (k := key 1) (by show key 1 ≠ key 6; decide +kernel)
  (demo_isMarket (by decide +kernel)) hm

example := fun m hm => C73_slab_bytes (m := m) onChain_moved (k := key 1) (by show key 1 ≠ key 6; decide +kernel)
  (demo_isMarket (by decide +kernel)) hm

example : part (moved (stateAt moved (key 1)).eventQueue).data 8 8 = toLE 8 1 ∧
    part (moved (stateAt moved (key 1)).eventQueue).data (32 + 40) 40 =
      [0, 0, 0, 0, 0, 0, 0, 0] ++ [10, 0, 0, 0, 0, 0, 0, 0] ++ [0, 0, 0, 0, 0, 0, 0, 0, 0, 0, 0, 0, 10, 0, 0, 0] ++
        [1, 0, 0, 0, 0, 0, 0, 0] := by decide +kernel

/-- Two asks: a root with two leaves. -/
def grown : World := DemoChain.after moved DemoChain.accounts (DemoChain.newOrder .ask 7 12 3)

theorem onChain_grown : OnChain DemoChain.env Bytes32 DemoChain.R grown :=
  DemoChain.onChain_after onChain_moved (by decide +kernel) (by decide +kernel)

example := fun m hm => C73_slab_bytes (m := m) onChain_grown (k := key 1) (by show key 1 ≠ key 6; decide +kernel)
  (demo_isMarket (by decide +kernel)) hm

/-- The root is inner node 0; ids 10 and 12 shifted by 96 part at bit 98, so they have a prefix of 29 bits. -/
example : part (grown (stateAt grown (key 1)).asks).data 32 8 = [255, 255, 255, 255] ++ [2, 0, 0, 0] ∧
    part (grown (stateAt grown (key 1)).asks).data (40 + 2 * 24 + 16) 16 =
      [29, 0, 0, 0, 0, 0, 0, 0] ++ [0, 0, 0, 0] ++ [1, 0, 0, 0] := by decide +kernel

/-- Taking the first away: leaf 0 and inner node 0 are free, the root is leaf 1. -/
def shrunk : World := DemoChain.after grown DemoChain.accounts (DemoChain.cancel DemoChain.askId)

example := fun m hm => C73_slab_bytes (m := m)
  (DemoChain.onChain_after onChain_grown (by decide +kernel) (by decide +kernel) : OnChain _ Bytes32 _ shrunk) (k := key 1)
  (by show key 1 ≠ key 6; decide +kernel) (demo_isMarket (by decide +kernel)) hm

example : part (shrunk (stateAt shrunk (key 1)).asks).data 8 32 =
    [1, 0, 0, 0] ++ [0, 0, 0, 0] ++ [2, 0, 0, 0] ++ [1, 0, 0, 0] ++ [0, 0, 0, 0] ++ [1, 0, 0, 0] ++
      [1, 0, 0, 0] ++ [1, 0, 0, 0] := by decide +kernel

example := C73_market_bytes (Accounts.demo_load (w := moved) (k := key 1) (by decide +kernel)).choose_spec

end

end RawBytes
end AOB
