import Verif.Props.RawBytes
import Verif.Props.History
import Verif.Proofs.Slots
/-
C114: where an event is.
-/
namespace AOB
variable {C : Type}

/-! ### Only consuming moves the head -/

/-- Same head, same number of slots. -/
def EventQueue.SameHead (q q' : EventQueue C) : Prop :=
  q'.header.head = q.header.head ∧ q'.events.length = q.events.length

theorem EventQueue.SameHead.refl (q : EventQueue C) : q.SameHead q := ⟨rfl, rfl⟩

theorem EventQueue.SameHead.trans {q q' q'' : EventQueue C} (h : q.SameHead q') (h' : q'.SameHead q'') : q.SameHead q'' :=
  ⟨h'.1.trans h.1, h'.2.trans h.2⟩

theorem EventQueue.push_sameHead {q q' : EventQueue C} {e : AnyEvent} {a b : Option C} (h : q.push e a b = .ok q') :
    q.SameHead q' := by
  unfold EventQueue.push at h
  obtain ⟨r, hr, h⟩ := bind_ok h
  unfold EventQueue.pushBack at hr
  split at hr
  · obtain rfl := Except.ok.inj hr
    cases h
  · obtain ⟨x1, _, hr⟩ := bind_ok hr
    obtain ⟨x2, _, hr⟩ := bind_ok hr
    obtain ⟨x3, h3, hr⟩ := bind_ok hr
    obtain ⟨x4, _, hr⟩ := bind_ok hr
    obtain ⟨x5, _, hr⟩ := bind_ok hr
    obtain ⟨x6, _, hr⟩ := bind_ok hr
    obtain rfl := Except.ok.inj hr
    obtain rfl := Except.ok.inj h
    refine ⟨rfl, ?_⟩
    unfold setIdx at h3
    split at h3
    · obtain rfl := Except.ok.inj h3
      exact List.length_set ..
    · cases h3

theorem EventQueue.genOrderId_sameHead {q q' : EventQueue C} {lp id : Nat} {sd : Side} (h : q.genOrderId lp sd = .ok (id, q')) :
    q.SameHead q' := by
  unfold EventQueue.genOrderId at h
  obtain ⟨⟨n, q1⟩, h1, h⟩ := bind_ok h
  unfold EventQueue.genSeqNum at h1
  obtain ⟨x, _, h1⟩ := bind_ok h1
  obtain ⟨_, rfl⟩ := Prod.mk.inj (Except.ok.inj h1)
  obtain ⟨_, rfl⟩ := Prod.mk.inj (Except.ok.inj h)
  exact ⟨rfl, rfl⟩

theorem postLeaf_sameHead {sd : Side} {lp : Nat} {s s' : Slab C} {q q' : EventQueue C} {l : LeafNode} {k : Nat}
    (h : postLeaf sd lp s q l = .ok (.posted k s' q')) : q.SameHead q' := by
  unfold postLeaf at h
  split at h
  · obtain ⟨cand, _, h⟩ := bind_ok h
    obtain ⟨cd, _, h⟩ := bind_ok h
    obtain ⟨cl, hcl, h⟩ := bind_ok h
    dsimp only at h
    split at h
    · obtain ⟨⟨r, s1⟩, hr, h⟩ := bind_ok h
      obtain ⟨⟨o, c⟩, ho, h⟩ := bind_ok h
      obtain ⟨q1, hq1, h⟩ := bind_ok h
      obtain ⟨⟨h2, s2⟩, hs2, h⟩ := bind_ok h
      injection Except.ok.inj h with e1 e2 e3
      subst e3
      exact EventQueue.push_sameHead hq1
    · cases h
  · obtain ⟨⟨h2, s2⟩, hs2, h⟩ := bind_ok h
    injection Except.ok.inj h with e1 e2 e3
    subst e3
    exact .refl _

variable [CallbackInfo C]

theorem matchLoop_sameHead (p : NewOrderParams C) (mb : Nat) {q : EventQueue C} (n : Nat) : ∀ {st st' : MatchState C},
    q.SameHead st.queue → matchLoop p mb n st = .ok st' → q.SameHead st'.queue := by
  induction n with
  | zero =>
    intro st st' hb h
    obtain rfl := Except.ok.inj h
    exact hb
  | succ n ih =>
    intro st st' hb h
    unfold matchLoop at h
    obtain ⟨bbo, hbbo, h⟩ := bind_ok h
    cases bbo with
    | none => obtain rfl := Except.ok.inj h; exact hb
    | some hd =>
      obtain ⟨bo, hbo, h⟩ := bind_ok h
      dsimp only at h
      split at h
      · obtain rfl := Except.ok.inj h; exact hb
      split at h
      · obtain rfl := Except.ok.inj h; exact hb
      split at h
      · cases h
      split at h
      · obtain rfl := Except.ok.inj h; exact hb
      obtain ⟨wst, hwst, h⟩ := bind_ok h
      split at h
      · split at h
        · cases h
        obtain ⟨c, hc, h⟩ := bind_ok h
        obtain ⟨q1, hq1, h⟩ := bind_ok h
        obtain ⟨⟨r, s1⟩, hr, h⟩ := bind_ok h
        obtain ⟨x, hx, h⟩ := bind_ok h
        exact ih (st := { st with book := _, queue := _, crossed := _ }) (hb.trans (EventQueue.push_sameHead hq1)) h
      · obtain ⟨c, hc, h⟩ := bind_ok h
        obtain ⟨q1, hq1, h⟩ := bind_ok h
        have k1 := hb.trans (EventQueue.push_sameHead hq1)
        obtain ⟨left, hleft, h⟩ := bind_ok h
        obtain ⟨s1, hs1, h⟩ := bind_ok h
        obtain ⟨br, hbr, h⟩ := bind_ok h
        obtain ⟨qr, hqr, h⟩ := bind_ok h
        split at h
        · obtain ⟨⟨r, s2⟩, hr, h⟩ := bind_ok h
          obtain ⟨⟨x, c2⟩, hx, h⟩ := bind_ok h
          obtain ⟨q2, hq2, h⟩ := bind_ok h
          exact ih (st := MatchState.mk _ _ _ _ _) (k1.trans (EventQueue.push_sameHead hq2)) h
        · exact ih (st := MatchState.mk _ _ _ _ _) k1 h

theorem newOrder_sameHead {b b' : OrderBook C} {q q' : EventQueue C} {p : NewOrderParams C} {mb : Nat} {sum : OrderSummary}
    (h : b.newOrder p q mb = .ok (sum, b', q')) : q.SameHead q' := by
  unfold OrderBook.newOrder at h
  obtain ⟨st, hst, h⟩ := bind_ok h
  have k1 := matchLoop_sameHead p mb (q := q) _ (st := MatchState.mk _ _ _ _ _) (.refl _) hst
  dsimp only at h
  split at h
  · obtain ⟨s, _, h⟩ := bind_ok h
    obtain ⟨_, e⟩ := Prod.mk.inj (Except.ok.inj h)
    obtain ⟨rfl, rfl⟩ := Prod.mk.inj e
    exact k1
  · obtain ⟨⟨id, q1⟩, hid, h⟩ := bind_ok h
    have k2 := k1.trans (EventQueue.genOrderId_sameHead hid)
    obtain ⟨r, hr, h⟩ := bind_ok h
    cases r with
    | refused =>
      obtain ⟨s, _, h⟩ := bind_ok h
      obtain ⟨_, e⟩ := Prod.mk.inj (Except.ok.inj h)
      obtain ⟨rfl, rfl⟩ := Prod.mk.inj e
      exact k2
    | posted hd s1 q2 =>
      obtain ⟨s2, hs2, h⟩ := bind_ok h
      obtain ⟨x1, _, h⟩ := bind_ok h
      split at h
      · cases h
      · obtain ⟨x2, _, h⟩ := bind_ok h
        obtain ⟨x3, _, h⟩ := bind_ok h
        obtain ⟨x4, _, h⟩ := bind_ok h
        obtain ⟨e0, e⟩ := Prod.mk.inj (Except.ok.inj h)
        obtain ⟨rfl, rfl⟩ := Prod.mk.inj e
        exact k2.trans (postLeaf_sameHead hr)

/-- One transaction moves the head by the number of events it consumes. -/
theorem step_head {c : Config} {is : List (Instr C)} {m : Market C} (hr : ReachBy c is m) (i : Instr C) :
    (m.step i).queue.header.head = (m.queue.header.head + (stepLog m i).consumed.length) % m.queue.events.length ∧
      (m.step i).queue.events.length = m.queue.events.length := by
  have hinv : QInv m.queue := hr.known.1.rep.queue.1
  have same : ∀ {q : EventQueue C}, m.queue.SameHead q → q.header.head = (m.queue.header.head + 0) % m.queue.events.length ∧
      q.events.length = m.queue.events.length := fun {q} h => ⟨by rw [h.1, Nat.add_zero, Nat.mod_eq_of_lt hinv.head], h.2⟩
  cases i with
  | newOrder p =>
    cases he : m.newOrder p with
    | error e =>
      have hs : m.step (.newOrder p) = m := by simp only [Market.step, Market.exec, he]; rfl
      have hl : (stepLog m (.newOrder p)).consumed.length = 0 := by simp only [stepLog, he]; rfl
      rw [hs, hl]
      exact same (.refl _)
    | ok r =>
      obtain ⟨s, m'⟩ := r
      have hs : m.step (.newOrder p) = m' := by simp only [Market.step, Market.exec, he, ok_bind]
      have hl : (stepLog m (.newOrder p)).consumed.length = 0 := by simp only [stepLog, he]; rfl
      rw [hs, hl]
      refine same (q := m'.queue) ?_
      unfold Market.newOrder at he
      obtain ⟨_, _, h1⟩ := bind_ok he
      split at h1
      · cases h1
      split at h1
      · cases h1
      obtain ⟨⟨s', b', q'⟩, h3, h2⟩ := bind_ok h1
      obtain ⟨rfl, rfl⟩ := Prod.mk.inj (Except.ok.inj h2)
      exact newOrder_sameHead h3
  | cancelOrder id =>
    cases he : m.cancelOrder id with
    | error e =>
      have hs : m.step (.cancelOrder id) = m := by simp only [Market.step, Market.exec, he]; rfl
      have hl : (stepLog m (.cancelOrder id)).consumed.length = 0 := by simp only [stepLog, he]; rfl
      rw [hs, hl]
      exact same (.refl _)
    | ok r =>
      obtain ⟨s, m'⟩ := r
      have hs : m.step (.cancelOrder id) = m' := by simp only [Market.step, Market.exec, he, ok_bind]
      have hl : (stepLog m (.cancelOrder id)).consumed.length = 0 := by simp only [stepLog, he]; rfl
      rw [hs, hl]
      refine same (q := m'.queue) ?_
      obtain ⟨⟨s', b'⟩, h3, h2⟩ := bind_ok he
      obtain ⟨rfl, rfl⟩ := Prod.mk.inj (Except.ok.inj h2)
      exact .refl _
  | massCancelOrders ids =>
    cases he : m.massCancelOrders ids with
    | error e =>
      have hs : m.step (.massCancelOrders ids) = m := by simp only [Market.step, Market.exec, he]; rfl
      have hl : (stepLog m (.massCancelOrders ids)).consumed.length = 0 := by simp only [stepLog, he]; rfl
      rw [hs, hl]
      exact same (.refl _)
    | ok r =>
      obtain ⟨s, m'⟩ := r
      have hs : m.step (.massCancelOrders ids) = m' := by simp only [Market.step, Market.exec, he, ok_bind]
      have hl : (stepLog m (.massCancelOrders ids)).consumed.length = 0 := by simp only [stepLog, he]; rfl
      rw [hs, hl]
      refine same (q := m'.queue) ?_
      obtain ⟨⟨x, y, b'⟩, h3, h2⟩ := bind_ok he
      obtain ⟨rfl, rfl⟩ := Prod.mk.inj (Except.ok.inj h2)
      exact .refl _
  | consumeEvents n =>
    obtain ⟨m1, h1, h2, _⟩ := C26_consume hr.reachable n
    have hlen : (pending m).length = m.queue.header.count := by
      rw [hr.known.1.rep.pending, ← hr.known.1.rep.queue.2.1, List.length_map]
    have hs : m.step (.consumeEvents n) = m1 := by simp only [Market.step, Market.exec, h1, ok_bind]
    have hl : (stepLog m (.consumeEvents n)).consumed.length = min m.queue.header.count n := by
      simp only [stepLog, h1]
      rw [List.length_take, h2, List.length_drop]
      omega
    rw [hs, hl]
    obtain ⟨q', h3, h4⟩ := bind_ok h1
    obtain rfl := Except.ok.inj h4
    unfold EventQueue.popN at h3
    obtain ⟨x1, _, h3⟩ := bind_ok h3
    obtain ⟨x2, g2, h3⟩ := bind_ok h3
    obtain ⟨x3, g3, h3⟩ := bind_ok h3
    obtain rfl := Except.ok.inj h3
    refine ⟨?_, rfl⟩
    unfold addU64 at g2
    split at g2
    · obtain rfl := Except.ok.inj g2
      unfold remU at g3
      split at g3
      · cases g3
      · exact (Except.ok.inj g3).symm
    · cases g2

theorem run_head : ∀ {js : List (Instr C)} {c : Config} {is : List (Instr C)} {m : Market C}, ReachBy c is m → (∀ i ∈ js, i.Ok) →
    (m.run js).queue.header.head = (m.queue.header.head + (runLog m js).consumed.length) % m.queue.events.length ∧
      (m.run js).queue.events.length = m.queue.events.length
  | [], _, _, m, h, _ => ⟨(Nat.mod_eq_of_lt h.known.1.rep.queue.1.head).symm, rfl⟩
  | i :: js, _, _, m, h, hj => by
    obtain ⟨a1, a2⟩ := step_head h i
    obtain ⟨b1, b2⟩ := run_head (js := js) (h.step (hj i (by simp))) (fun j hj' => hj j (by simp [hj']))
    refine ⟨?_, b2.trans a2⟩
    show ((m.step i).run js).queue.header.head =
      (m.queue.header.head + ((stepLog m i).consumed ++ (runLog (m.step i) js).consumed).length) % m.queue.events.length
    rw [b1, a1, a2, List.length_append, Nat.mod_add_mod, Nat.add_assoc]

/-- What a transaction consumes and leaves pending is what was pending and what it emits. -/
theorem step_pending {c : Config} {is : List (Instr C)} {m : Market C} (h : ReachBy c is m) {i : Instr C} (hi : i.Ok) :
    (stepLog m i).consumed ++ pending (m.step i) = pending m ++ (stepLog m i).events := by
  cases i with
  | newOrder p =>
    cases he : m.newOrder p with
    | error e =>
      have hs : m.step (.newOrder p) = m := by simp only [Market.step, Market.exec, he]; rfl
      rw [hs]; simp [stepLog, he]
    | ok r =>
      obtain ⟨s, m'⟩ := r
      have hs : m.step (.newOrder p) = m' := by simp only [Market.step, Market.exec, he, ok_bind]
      rw [hs, C49_appended h.reachable hi he]; simp [stepLog, he]
  | cancelOrder id =>
    cases he : m.cancelOrder id with
    | error e =>
      have hs : m.step (.cancelOrder id) = m := by simp only [Market.step, Market.exec, he]; rfl
      rw [hs]; simp [stepLog, he]
    | ok r =>
      obtain ⟨s, m'⟩ := r
      have hs : m.step (.cancelOrder id) = m' := by simp only [Market.step, Market.exec, he, ok_bind]
      rw [hs, (C08_cancel_silent.1 he).1]; simp [stepLog, he]
  | massCancelOrders ids =>
    cases he : m.massCancelOrders ids with
    | error e =>
      have hs : m.step (.massCancelOrders ids) = m := by simp only [Market.step, Market.exec, he]; rfl
      rw [hs]; simp [stepLog, he]
    | ok r =>
      obtain ⟨s, m'⟩ := r
      have hs : m.step (.massCancelOrders ids) = m' := by simp only [Market.step, Market.exec, he, ok_bind]
      rw [hs, (C08_cancel_silent.2 he).1]; simp [stepLog, he]
  | consumeEvents n =>
    obtain ⟨m1, h1, h2, _⟩ := C26_consume h.reachable n
    have hs : m.step (.consumeEvents n) = m1 := by simp only [Market.step, Market.exec, h1, ok_bind]
    rw [hs]
    simp only [stepLog, h1, List.append_nil]
    rw [h2, List.length_drop]
    by_cases hn : n ≤ (pending m).length
    · rw [Nat.sub_sub_self hn, List.take_append_drop]
    · rw [List.drop_eq_nil_of_le (by omega), Nat.sub_eq_zero_of_le (Nat.le_of_not_le hn), Nat.sub_zero, List.take_length,
        List.append_nil]

theorem run_pending : ∀ {js : List (Instr C)} {c : Config} {is : List (Instr C)} {m : Market C}, ReachBy c is m → (∀ i ∈ js, i.Ok) →
    (runLog m js).consumed ++ pending (m.run js) = pending m ++ (runLog m js).events
  | [], _, _, m, _, _ => by simp [runLog, Market.run]
  | i :: js, _, _, m, h, hj => by
    have hi := hj i (by simp)
    have a := step_pending h hi
    have b := run_pending (js := js) (h.step hi) (fun j hj' => hj j (by simp [hj']))
    show ((stepLog m i).consumed ++ (runLog (m.step i) js).consumed) ++ pending ((m.step i).run js) =
      pending m ++ ((stepLog m i).events ++ (runLog (m.step i) js).events)
    rw [List.append_assoc, b, ← List.append_assoc, a, List.append_assoc]

/-- C114: the head of the queue is the number of events consumed so far, modulo the number of slots, and event number `k` of
the life of the market is, as long as it is pending, in slot `k` modulo the number of slots. -/
theorem C114_slot_of_event {c : Config} {is : List (Instr C)} {m : Market C} {L : Log C} (h : HistoryOf c is m L) :
    m.queue.header.head = L.consumed.length % c.capEvents ∧ m.queue.events.length = c.capEvents ∧
    L.consumed ++ pending m = L.events ∧
    ∀ k e, L.consumed.length ≤ k → L.events[k]? = some e →
      ∃ r, m.queue.getEvent (k % c.capEvents) = .ok r ∧ r.toEvent = e := by
  obtain ⟨hv, hok, c0, rfl, rfl⟩ := h
  have h0 : ReachBy c [] (c.market c0) := ⟨hv, fun _ h => absurd h List.not_mem_nil, c0, rfl⟩
  have hr : ReachBy c is ((c.market c0).run is) := ⟨hv, hok, c0, rfl⟩
  have h49 := run_pending h0 hok
  rw [show pending (c.market c0) = [] from by rw [h0.known.1.rep.pending]; rfl, List.nil_append] at h49
  obtain ⟨a1, a2⟩ := run_head h0 hok
  rw [show (c.market c0).queue.header.head = 0 from rfl, Nat.zero_add] at a1
  have hq := hr.known.1.rep.queue
  have hcap : (c.market c0).queue.events.length = c.capEvents := List.length_replicate
  rw [hcap] at a1 a2
  refine ⟨a1, a2, h49, fun k e hk he => ?_⟩
  rw [← h49, List.getElem?_append_right hk, hr.known.1.rep.pending] at he
  obtain ⟨hlt, hge⟩ := List.getElem?_eq_some_iff.1 he
  have := hq.2.2 (k - (runLog (c.market c0) is).consumed.length) (by rw [List.length_map]; exact hlt)
  rw [a2, a1, Nat.mod_add_mod, Nat.add_sub_cancel' hk, List.getElem_map, hge] at this
  exact ⟨_, this, Event.toEvent_toRef e⟩

namespace RawBytes
variable [Pod C] [Borsh C] {env : Env} {R : Pubkey → Prop} {w w' : World} {k : Pubkey} {m : Market C}

/-- C114, in the raw bytes: whatever happens on the chain, until the market is closed, there is a number `n` of events
consumed and a list of events emitted meanwhile, the head has moved on by `n` slots, and an event not among those consumed
is in the same 40 bytes of the account as before, and its callback information in the same place. -/
theorem C114_bytes (hw : OnChain env C R w) (hR : ¬ R k) (hM : IsMarket env w k) (hm : loadMarket C w k = .ok m)
    (h : ChainRun env C R w w') :
    (∃ w1, ChainRun env C R w w1 ∧ ChainRun env C R w1 w' ∧ (w1 k).data[0]? = some 132) ∨
    ∃ m' n new cap head, loadMarket C w' k = .ok m' ∧ n ≤ (pending m ++ new).length ∧ pending m' = (pending m ++ new).drop n ∧
      QueueBytes (w (stateAt w k).eventQueue).data cap head m.queue.header.seqNum (pending m) ∧
      QueueBytes (w' (stateAt w' k).eventQueue).data cap ((head + n) % cap) m'.queue.header.seqNum (pending m') ∧
      ∀ i e, n ≤ i → (pending m)[i]? = some e → ∃ slot, slot < cap ∧
        part (w (stateAt w k).eventQueue).data (32 + slot * 40) 40 = eventBytes e ∧
        part (w' (stateAt w' k).eventQueue).data (32 + slot * 40) 40 = eventBytes e ∧
        ∀ j (hj : j < (eventInfos e).length),
          part (w (stateAt w k).eventQueue).data (32 + cap * 40 + (2 * slot + j) * Pod.size C) (Pod.size C) =
            Pod.toBytes (eventInfos e)[j] ∧
          part (w' (stateAt w' k).eventQueue).data (32 + cap * 40 + (2 * slot + j) * Pod.size C) (Pod.size C) =
            Pod.toBytes (eventInfos e)[j] := by
  obtain ⟨is, hf, ⟨hM', hm'⟩ | ⟨w1, w2, a1, a2, a3, _, _, _, _, a4⟩⟩ := Chain.C54_run hw hR hM hm h
  · obtain ⟨c, is0, hr⟩ := Chain.C54_reachable hw hR hM hm
    have hj : ∀ i ∈ is, i.Ok := fun i hi => (hf i hi).ok
    have hw' : OnChain env C R w' := by
      obtain ⟨w0, a, b⟩ := hw
      refine ⟨w0, a, ?_⟩
      clear hm' hM'
      induction h with
      | refl => exact b
      | step _ hs ih => exact ih.step hs
    have b1 := queue_bytes hw hR hM hm
    have b2 := queue_bytes hw' hR hM' hm'
    obtain ⟨r1, r2⟩ := run_head hr hj
    have r3 := run_pending hr hj
    rw [r1, r2] at b2
    have hdrop : pending (m.run is) = (pending m ++ (runLog m is).events).drop (runLog m is).consumed.length := by
      rw [← r3, List.drop_left]
    refine .inr ⟨_, (runLog m is).consumed.length, (runLog m is).events, _, _, hm', ?_, hdrop, b1, b2, fun i e hi he => ?_⟩
    · rw [← r3, List.length_append]; omega
    · obtain ⟨hlt, rfl⟩ := List.getElem?_eq_some_iff.1 he
      have he' : (pending (m.run is))[i - (runLog m is).consumed.length]? = some (pending m)[i] := by
        rw [hdrop, List.getElem?_drop, Nat.add_sub_cancel' hi, List.getElem?_append_left hlt, he]
      obtain ⟨hlt', hge⟩ := List.getElem?_eq_some_iff.1 he'
      have hslot : ((m.queue.header.head + (runLog m is).consumed.length) % m.queue.events.length +
          (i - (runLog m is).consumed.length)) % m.queue.events.length = (m.queue.header.head + i) % m.queue.events.length := by
        rw [Nat.mod_add_mod, Nat.add_assoc, Nat.add_sub_cancel' hi]
      have e2 := b2.event _ hlt'
      have i2 := b2.infos _ hlt'
      rw [hslot] at e2 i2
      rw [hge] at e2
      refine ⟨_, Nat.mod_lt _ (Nat.lt_of_le_of_lt (Nat.zero_le _) b1.head_lt), b1.event i hlt, e2, fun j hj => ⟨b1.infos i hlt j hj, ?_⟩⟩
      have := i2 j (by rw [hge]; exact hj)
      simpa only [hge] using this
  · exact .inl ⟨w2, .step a1 a2, a3, a4⟩

section
open DemoChain (key)
open Client (moved onChain_moved)
open Accounts (demo_isMarket)

example := fun m hm => C114_bytes (m := m) (w' := grown) onChain_moved (k := key 1)
  (by show key 1 ≠ key 6; decide +kernel) (demo_isMarket (by decide +kernel)) hm
  (.step .refl (.call (accounts := DemoChain.accounts) (by show ∀ k ∈ DemoChain.accounts, k ≠ key 6; decide +kernel)
    (DemoChain.after_step (d := DemoChain.newOrder .ask 7 12 3) (by decide +kernel)).choose_spec))
/-- The pending event is in slot 1. -/
example : (loadMarket Bytes32 moved (key 1)).toOption.map (fun m => (pending m).length) = some 1 ∧
    part (moved (key 2)).data (32 + 40) 40 = part (grown (key 2)).data (32 + 40) 40 ∧
    (moved (key 2)).data ≠ (grown (key 2)).data := by decide +kernel
end

end RawBytes

/-! ### A ring of five slots that has wrapped around -/

/-- Three trades whose events are consumed, and a fourth one. -/
def ringHist : List (Instr DemoCb) :=
  let trade : List (Instr DemoCb) := [.newOrder (demoOrder .ask 5 10 1), .newOrder (demoOrder .bid 5 10 2)]
  trade ++ [.consumeEvents 9] ++ trade ++ [.consumeEvents 9] ++ trade ++ [.consumeEvents 9] ++ trade

def ringCfg : Config := { demoCfg with capEvents := 5 }

theorem ring_history : HistoryOf ringCfg ringHist ((ringCfg.market ⟨0, 0⟩).run ringHist) (runLog (ringCfg.market ⟨0, 0⟩) ringHist) :=
  ⟨by constructor <;> decide, by decide +kernel, ⟨0, 0⟩, rfl, rfl⟩

example := C114_slot_of_event ring_history
example : (runLog (ringCfg.market ⟨0, 0⟩) ringHist).consumed.length = 6 ∧ (runLog (ringCfg.market ⟨0, 0⟩) ringHist).events.length = 8 ∧
    ((ringCfg.market ⟨0, 0⟩).run ringHist).queue.header.head = 1 := by decide +kernel
example := (C114_slot_of_event ring_history).2.2.2 7 _ (by decide +kernel) rfl

end AOB
