import Verif.Spec.Types
import Verif.Proofs.SlabInv
import Verif.Proofs.BytesLemmas
import Mathlib.Data.Nat.ModEq
/-
The ring buffer refines a list of events.
-/
namespace AOB
variable {C : Type}

theorem castOut_castFill {o : OutEvent} (hl : o.padding.length = 14) :
    o.castFill.castOut = o := by
  unfold OutEvent.castFill FillEvent.castOut
  simp only
  have h8 : (o.padding.drop 6).length = 8 := by simp [hl]
  have : toLE 8 (ofLE (o.padding.drop 6)) = o.padding.drop 6 := by
    rw [← h8]
    exact toLE_ofLE _
  rw [this, List.take_append_drop]

/-- Size and index invariant of the ring buffer. -/
structure QInv (q : EventQueue C) : Prop where
  pos : 0 < q.events.length
  small : q.events.length ≤ 2 ^ 62
  head : q.header.head < q.events.length
  count : q.header.count ≤ q.events.length
  infos : 2 * q.events.length ≤ q.callbackInfos.length

/-- The queue holds exactly the events `es`, oldest first. -/
def QRepR (q : EventQueue C) (es : List (EventRef C)) : Prop :=
  QInv q ∧ es.length = q.header.count ∧
  ∀ i (h : i < es.length), q.getEvent ((q.header.head + i) % q.events.length) = .ok es[i]

theorem ring_ne {h i j c : Nat} (hi : i < c) (hj : j < c) (hne : i ≠ j) : (h + i) % c ≠ (h + j) % c := by
  intro heq
  have h1 : h + i ≡ h + j [MOD c] := heq
  have h2 := Nat.ModEq.add_left_cancel' h h1
  exact hne (Nat.ModEq.eq_of_lt_of_lt h2 hi hj)

/-- What `get_event` returns for a pushed event. -/
def AnyEvent.ref (e : AnyEvent) (m t : C) : EventRef C :=
  match e with
  | .fill e => .fill { e with tag := TAG_FILL } m t
  | .out e => .out { e with tag := TAG_OUT } m

/-- The event's padding has the right shape. -/
def AnyEvent.Ok : AnyEvent → Prop
  | .fill _ => True
  | .out e => e.padding.length = 14

theorem getEvent_congr {q q' : EventQueue C} {j : Nat} (h1 : q'.events[j]? = q.events[j]?)
    (h2 : q'.callbackInfos[2 * j]? = q.callbackInfos[2 * j]?)
    (h3 : q'.callbackInfos[2 * j + 1]? = q.callbackInfos[2 * j + 1]?) :
    q'.getEvent j = q.getEvent j := by
  unfold EventQueue.getEvent idx
  rw [h1, h2, h3]

theorem storeInfo_ok {infos : List C} {i : Nat} {o : Option C} (h : i < infos.length) :
    ∃ infos', EventQueue.storeInfo infos i o = .ok infos' ∧ infos'.length = infos.length ∧
      (∀ j, j ≠ i → infos'[j]? = infos[j]?) ∧ (∀ c, o = some c → infos'[i]? = some c) := by
  cases o with
  | none => exact ⟨infos, rfl, rfl, fun _ _ => rfl, by simp⟩
  | some c =>
    refine ⟨infos.set i c, setIdx_eq h, by simp, ?_, ?_⟩
    · intro j hj; rw [List.getElem?_set_ne (fun h => hj h.symm)]
    · intro c' hc'; cases hc'; rw [List.getElem?_set_self h]

theorem getEvent_fill {q : EventQueue C} {j : Nat} {g : FillEvent} {m t : C} (h : q.events[j]? = some g)
    (hg : g.tag = TAG_FILL) (hm : q.callbackInfos[2 * j]? = some m)
    (ht : q.callbackInfos[2 * j + 1]? = some t) : q.getEvent j = .ok (.fill g m t) := by
  unfold EventQueue.getEvent
  rw [idx_eq h, ok_bind, if_pos hg, idx_eq hm, ok_bind, idx_eq ht, ok_bind]

theorem getEvent_out {q : EventQueue C} {j : Nat} {g : FillEvent} {c : C} (h : q.events[j]? = some g)
    (hg : g.tag = TAG_OUT) (hm : q.callbackInfos[2 * j]? = some c) :
    q.getEvent j = .ok (.out g.castOut c) := by
  unfold EventQueue.getEvent
  rw [idx_eq h, ok_bind, if_neg (by rw [hg]; decide), if_pos hg, idx_eq hm, ok_bind]

/-- A full queue refuses the event and hands it back. -/
theorem QRepR.push_full {q : EventQueue C} {es : List (EventRef C)} (hq : QRepR q es)
    (hfull : es.length = q.events.length) (e : AnyEvent) (m t : Option C) :
    q.pushBack e m t = .ok (.refused e) := by
  unfold EventQueue.pushBack EventQueue.full
  rw [← hq.2.1, hfull]
  simp

/-- Pushing appends at the end. -/
theorem QRepR.push_ok {q : EventQueue C} {es : List (EventRef C)} (hq : QRepR q es)
    (hroom : es.length < q.events.length) {e : AnyEvent} (he : e.Ok) {m : C} {t : Option C}
    {t' : C} (ht : ∀ f, e = .fill f → t = some t') :
    ∃ q', q.pushBack e (some m) t = .ok (.pushed q') ∧ QRepR q' (es ++ [e.ref m t']) ∧
      q'.events.length = q.events.length ∧ q'.header.seqNum = q.header.seqNum ∧
      q'.callbackInfos.length = q.callbackInfos.length := by
  obtain ⟨hinv, hlen, hev⟩ := hq
  obtain ⟨hpos, hsmall, hhead, hcount, hinfos⟩ := hinv
  have hnf : q.full = false := by
    unfold EventQueue.full
    rw [← hlen]
    simp; omega
  unfold EventQueue.pushBack
  rw [hnf]
  simp only [Bool.false_eq_true, if_false]
  set k := (q.header.head + q.header.count) % q.events.length with hk
  have hklt : k < q.events.length := Nat.mod_lt _ hpos
  rw [addU64_ok (by omega), ok_bind, remU_ok hpos, ok_bind, ← hk, setIdx_eq hklt, ok_bind,
    addU64_ok (by omega), ok_bind]
  obtain ⟨i1, hs1, hl1, ho1, hi1⟩ := storeInfo_ok (infos := q.callbackInfos) (i := k * 2) (o := some m)
    (by omega)
  rw [hs1, ok_bind]
  obtain ⟨i2, hs2, hl2, ho2, hi2⟩ := storeInfo_ok (infos := i1) (i := k * 2 + 1) (o := t)
    (by omega)
  rw [hs2, ok_bind]
  refine ⟨_, rfl, ⟨⟨by simpa using hpos, by simpa using hsmall, by simpa using hhead, ?_, ?_⟩, ?_, ?_⟩,
    by simp, rfl, by simp only; omega⟩
  · simp only [List.length_set]; omega
  · simp only [List.length_set]; omega
  · simp [hlen]
  · intro i hi
    simp only [List.length_set]
    simp only [List.length_append, List.length_singleton] at hi
    by_cases hic : i < es.length
    · rw [List.getElem_append_left hic, ← hev i hic]
      have hne : (q.header.head + i) % q.events.length ≠ k := by
        rw [hk, ← hlen]
        exact ring_ne (by omega) (by omega) (by omega)
      apply getEvent_congr
      · simp only
        rw [List.getElem?_set_ne (fun h => hne h.symm)]
      · simp only
        rw [ho2 _ (by omega), ho1 _ (by omega)]
      · simp only
        rw [ho2 _ (by omega), ho1 _ (by omega)]
    · have hieq : i = es.length := by omega
      subst hieq
      rw [List.getElem_append_right (le_refl _)]
      simp only [Nat.sub_self, List.getElem_singleton]
      rw [hlen, ← hk]
      have hm : i2[2 * k]? = some m := by
        rw [ho2 _ (by omega), show 2 * k = k * 2 by omega]
        exact hi1 m rfl
      have hg : ({ header := { q.header with count := q.header.count + 1 }, events := q.events.set k e.toGeneric, callbackInfos := i2 } : EventQueue C).events[k]? = some e.toGeneric :=
        List.getElem?_set_self hklt
      cases e with
      | fill e =>
        have ht2 : i2[2 * k + 1]? = some t' := by
          rw [show 2 * k + 1 = k * 2 + 1 by omega]
          exact hi2 t' (ht e rfl)
        rw [getEvent_fill hg rfl hm ht2]
        rfl
      | out e =>
        rw [getEvent_out hg rfl hm]
        have := castOut_castFill (o := { e with tag := TAG_OUT }) he
        simp only [AnyEvent.toGeneric, OutEvent.toGeneric, this, AnyEvent.ref]

/-- `push` (with the error conversion of the call sites). -/
theorem QRepR.push {q : EventQueue C} {es : List (EventRef C)} (hq : QRepR q es)
    (hroom : es.length < q.events.length) {e : AnyEvent} (he : e.Ok) {m : C} {t : Option C}
    {t' : C} (ht : ∀ f, e = .fill f → t = some t') :
    ∃ q', q.push e (some m) t = .ok q' ∧ QRepR q' (es ++ [e.ref m t']) ∧
      q'.events.length = q.events.length ∧ q'.header.seqNum = q.header.seqNum ∧
      q'.callbackInfos.length = q.callbackInfos.length := by
  obtain ⟨q', h1, h2⟩ := hq.push_ok hroom he ht
  refine ⟨q', ?_, h2⟩
  unfold EventQueue.push
  rw [h1]; rfl

theorem QRepR.push_err {q : EventQueue C} {es : List (EventRef C)} (hq : QRepR q es)
    (hfull : es.length = q.events.length) (e : AnyEvent) (m t : Option C) :
    q.push e m t = .error (.ao .eventQueueFull) := by
  unfold EventQueue.push
  rw [hq.push_full hfull]; rfl

theorem QRepR.length_le {q : EventQueue C} {es : List (EventRef C)} (hq : QRepR q es) :
    es.length ≤ q.events.length := by rw [hq.2.1]; exact hq.1.count

/-- `pop_n` drops the oldest events. -/
theorem QRepR.popN {q : EventQueue C} {es : List (EventRef C)} (hq : QRepR q es) (n : Nat) :
    ∃ q', q.popN n = .ok q' ∧ QRepR q' (es.drop n) ∧ q'.events = q.events ∧
      q'.callbackInfos = q.callbackInfos ∧ q'.header.seqNum = q.header.seqNum := by
  obtain ⟨hinv, hlen, hev⟩ := hq
  obtain ⟨hpos, hsmall, hhead, hcount, hinfos⟩ := hinv
  unfold EventQueue.popN
  simp only
  rw [subU_ok (by omega), ok_bind, addU64_ok (by omega), ok_bind, remU_ok hpos, ok_bind]
  refine ⟨_, rfl, ⟨⟨hpos, hsmall, Nat.mod_lt _ hpos, ?_, hinfos⟩, ?_, ?_⟩, rfl, rfl, rfl⟩
  · simp only; omega
  · simp only [List.length_drop, hlen]; omega
  · intro i hi
    simp only [List.length_drop] at hi
    have hmin : min q.header.count n = n := by omega
    rw [List.getElem_drop, ← hev (n + i) (by omega)]
    simp only [hmin]
    have : ((q.header.head + n) % q.events.length + i) % q.events.length =
        (q.header.head + (n + i)) % q.events.length := by
      rw [Nat.mod_add_mod, Nat.add_assoc]
    rw [this]
    exact getEvent_congr rfl rfl rfl

theorem iterFrom_spec {q : EventQueue C} {es : List (EventRef C)} (hq : QRepR q es) :
    ∀ n i, i + n = es.length → q.iterFrom n i = .ok (es.drop i) := by
  intro n
  obtain ⟨hinv, hlen, hev⟩ := hq
  obtain ⟨hpos, hsmall, hhead, hcount, hinfos⟩ := hinv
  induction n with
  | zero =>
    intro i hi
    unfold EventQueue.iterFrom
    rw [List.drop_of_length_le (by omega)]
  | succ n ih =>
    intro i hi
    unfold EventQueue.iterFrom
    rw [addU64_ok (by omega), ok_bind, remU_ok hpos, ok_bind, hev i (by omega), ok_bind,
      ih (i + 1) (by omega), ok_bind, ← List.drop_eq_getElem_cons]

/-- Iterating yields the events. -/
theorem QRepR.iter {q : EventQueue C} {es : List (EventRef C)} (hq : QRepR q es) :
    q.iter = .ok es := by
  unfold EventQueue.iter
  rw [← hq.2.1]
  have := iterFrom_spec hq es.length 0 (by omega)
  simpa using this

/-- `peek_at`. -/
theorem QRepR.peekAt {q : EventQueue C} {es : List (EventRef C)} (hq : QRepR q es) (i : Nat) :
    q.peekAt i = .ok es[i]? := by
  obtain ⟨hinv, hlen, hev⟩ := hq
  obtain ⟨hpos, hsmall, hhead, hcount, hinfos⟩ := hinv
  unfold EventQueue.peekAt
  by_cases hi : q.header.count ≤ i
  · rw [if_pos hi, List.getElem?_eq_none (by omega)]
  · rw [if_neg hi, addU64_ok (by omega), ok_bind, remU_ok hpos, ok_bind, hev i (by omega), ok_bind,
      List.getElem?_eq_getElem (by omega)]

/-- The sequence number is not part of the contents. -/
theorem QRepR.setSeq {q : EventQueue C} {es : List (EventRef C)} (hq : QRepR q es) (n : Nat) :
    QRepR { q with header := { q.header with seqNum := n } } es := by
  obtain ⟨⟨h1, h2, h3, h4, h5⟩, hlen, hev⟩ := hq
  refine ⟨⟨h1, h2, h3, h4, h5⟩, hlen, ?_⟩
  intro i hi
  rw [← hev i hi]
  exact getEvent_congr rfl rfl rfl

/-- A zeroed queue is empty. -/
theorem qrep_zeroed (cap : Nat) (c0 : C) (h0 : 0 < cap) (h : cap ≤ 2 ^ 62) :
    QRepR (EventQueue.zeroed cap c0) [] := by
  refine ⟨⟨by simpa [EventQueue.zeroed] using h0, by simpa [EventQueue.zeroed] using h,
    by simpa [EventQueue.zeroed] using h0, by simp [EventQueue.zeroed],
    by simp [EventQueue.zeroed]⟩, rfl, ?_⟩
  intro i hi; simp at hi

/-! ### Abstract events -/

/-- The stored form of an event pushed by the matching engine. -/
def Event.toRef : Event C → EventRef C
  | .fill side makerId base quote m t =>
      .fill { tag := TAG_FILL, takerSide := side.toU8, padding := List.replicate 6 0,
              quoteSize := quote, makerOrderId := makerId, baseSize := base } m t
  | .out side id base c =>
      .out { tag := TAG_OUT, side := side.toU8, padding := List.replicate 14 0,
             orderId := id, baseSize := base } c

theorem Event.toEvent_toRef (e : Event C) : e.toRef.toEvent = e := by
  cases e with
  | fill side _ _ _ _ _ => cases side <;> simp [Event.toRef, EventRef.toEvent, Side.toU8]
  | out side _ _ _ => cases side <;> simp [Event.toRef, EventRef.toEvent, Side.toU8]

/-- The queue holds exactly these events (all pushed by the engine). -/
def QRep (q : EventQueue C) (es : List (Event C)) : Prop := QRepR q (es.map Event.toRef)

theorem QRep.contents {q : EventQueue C} {es : List (Event C)} (hq : QRep q es) :
    q.contents = .ok es := by
  unfold EventQueue.contents
  rw [hq.iter, ok_bind]
  simp [Function.comp_def, Event.toEvent_toRef]

theorem QRep.length_le {q : EventQueue C} {es : List (Event C)} (hq : QRep q es) :
    es.length ≤ q.events.length := by simpa using QRepR.length_le hq

theorem QRep.push_fill {q : EventQueue C} {es : List (Event C)} (hq : QRep q es)
    (hroom : es.length < q.events.length) (side : Side) (id base quote : Nat) (m t : C) :
    ∃ q', q.push (.fill
          { takerSide := side.toU8, makerOrderId := id, quoteSize := quote,
            baseSize := base, tag := TAG_FILL, padding := List.replicate 6 0 }) (some m) (some t)
          = .ok q' ∧ QRep q' (es ++ [.fill side id base quote m t]) ∧
      q'.events.length = q.events.length ∧ q'.header.seqNum = q.header.seqNum ∧
      q'.callbackInfos.length = q.callbackInfos.length := by
  obtain ⟨q', h1, h2, h3⟩ := QRepR.push (e := .fill
    { takerSide := side.toU8, makerOrderId := id, quoteSize := quote,
      baseSize := base, tag := TAG_FILL, padding := List.replicate 6 0 })
    hq (by simpa using hroom) trivial (m := m) (t := some t) (t' := t) (fun _ _ => rfl)
  refine ⟨q', h1, ?_, h3⟩
  unfold QRep
  simpa [Event.toRef, AnyEvent.ref] using h2

theorem QRep.push_out {q : EventQueue C} {es : List (Event C)} (hq : QRep q es)
    (hroom : es.length < q.events.length) (side : Side) (id base : Nat) (c : C) :
    ∃ q', q.push (.out
          { side := side.toU8, orderId := id, baseSize := base, tag := TAG_OUT,
            padding := List.replicate 14 0 }) (some c) none
          = .ok q' ∧ QRep q' (es ++ [.out side id base c]) ∧
      q'.events.length = q.events.length ∧ q'.header.seqNum = q.header.seqNum ∧
      q'.callbackInfos.length = q.callbackInfos.length := by
  obtain ⟨q', h1, h2, h3⟩ := QRepR.push (e := .out
    { side := side.toU8, orderId := id,
      baseSize := base, tag := TAG_OUT, padding := List.replicate 14 0 })
    hq (by simpa using hroom) (by simp [AnyEvent.Ok]) (m := c) (t := none) (t' := c) (fun _ h => by cases h)
  refine ⟨q', h1, ?_, h3⟩
  unfold QRep
  simpa [Event.toRef, AnyEvent.ref] using h2

theorem QRep.push_err {q : EventQueue C} {es : List (Event C)} (hq : QRep q es)
    (hfull : es.length = q.events.length) (e : AnyEvent) (m t : Option C) :
    q.push e m t = .error (.ao .eventQueueFull) := QRepR.push_err hq (by simpa using hfull) e m t

theorem QRep.popN {q : EventQueue C} {es : List (Event C)} (hq : QRep q es) (n : Nat) :
    ∃ q', q.popN n = .ok q' ∧ QRep q' (es.drop n) ∧ q'.events = q.events ∧
      q'.callbackInfos = q.callbackInfos ∧ q'.header.seqNum = q.header.seqNum := by
  obtain ⟨q', h1, h2, h3⟩ := QRepR.popN hq n
  refine ⟨q', h1, ?_, h3⟩
  unfold QRep
  rwa [List.map_drop]

end AOB
