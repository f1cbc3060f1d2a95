import Verif.Props.Count
import Verif.Props.Posting
/-
C115: the quantities of all orders together. What the orders of any set were posted with has been traded, taken out,
cancelled, or still rests; and what traders are told adds up to it.
-/
namespace AOB
variable {C : Type}

/-- Lists of numbers, each with a key, that agree in the sum for every single key agree in the sum for every set of keys. -/
theorem sum_of_keys (q : Nat → Bool) : ∀ (n : Nat) (a b : List (Nat × Nat)), a.length + b.length ≤ n →
    (∀ k, ((a.filter (fun x => x.1 == k)).map Prod.snd).sum = ((b.filter (fun x => x.1 == k)).map Prod.snd).sum) →
    ((a.filter (fun x => q x.1)).map Prod.snd).sum = ((b.filter (fun x => q x.1)).map Prod.snd).sum := by
  have split : ∀ (k : Nat) (l : List (Nat × Nat)), ((l.filter (fun x => q x.1)).map Prod.snd).sum =
      (if q k then ((l.filter (fun x => x.1 == k)).map Prod.snd).sum else 0) +
        (((l.filter (fun x => x.1 != k)).filter (fun x => q x.1)).map Prod.snd).sum := by
    intro k l
    induction l with
    | nil => simp
    | cons x l ih =>
      by_cases e : x.1 = k
      · subst e
        cases hq : q x.1 <;> simp [hq] at ih ⊢ <;> omega
      · cases hq : q x.1 <;> simp [e, hq] at ih ⊢ <;> omega
  have other : ∀ (k j : Nat) (l : List (Nat × Nat)), (l.filter (fun x => x.1 != k)).filter (fun x => x.1 == j) =
      if j = k then [] else l.filter (fun x => x.1 == j) := by
    intro k j l
    rw [List.filter_filter]
    split
    · next e => subst e; rw [List.filter_eq_nil_iff]; intro x _; simp
    · next e =>
      apply List.filter_congr
      intro x _
      by_cases h : x.1 = j <;> simp [h, e]
  intro n
  induction n with
  | zero =>
    intro a b h _
    obtain rfl : a = [] := List.eq_nil_of_length_eq_zero (by omega)
    obtain rfl : b = [] := List.eq_nil_of_length_eq_zero (by omega)
    rfl
  | succ n ih =>
    intro a b h hk
    have key : ∀ k, (a.filter (fun x => x.1 != k)).length + (b.filter (fun x => x.1 != k)).length ≤ n →
        ((a.filter (fun x => q x.1)).map Prod.snd).sum = ((b.filter (fun x => q x.1)).map Prod.snd).sum := by
      intro k hl
      rw [split k a, split k b, hk k, ih _ _ hl (fun j => ?_)]
      rw [other, other]
      split
      · rfl
      · exact hk j
    cases a with
    | cons x a =>
      apply key x.1
      rw [List.filter_cons_of_neg (by simp)]
      have h1 := List.length_filter_le (fun y : Nat × Nat => y.1 != x.1) a
      have h2 := List.length_filter_le (fun y : Nat × Nat => y.1 != x.1) b
      simp only [List.length_cons] at h
      omega
    | nil =>
      cases b with
      | nil => rfl
      | cons x b =>
        apply key x.1
        rw [List.filter_cons_of_neg (a := x) (by simp)]
        have h1 := List.length_filter_le (fun y : Nat × Nat => y.1 != x.1) b
        simp only [List.length_cons, List.length_nil, List.filter_nil] at h ⊢
        omega

theorem sumQty_keys (f : Nat → Bool) (l : List (Order C)) :
    (((l.map (fun o => (o.id, o.qty))).filter (fun x => f x.1)).map Prod.snd).sum = sumQty (l.filter (fun o => f o.id)) := by
  unfold sumQty
  rw [List.filter_map, List.map_map]; rfl

theorem sumBase_keys (f : Nat → Bool) (l : List (Event C)) :
    (((l.map (fun e => (e.id, e.base))).filter (fun x => f x.1)).map Prod.snd).sum = sumBase (l.filter (fun e => f e.id)) := by
  unfold sumBase
  rw [List.filter_map, List.map_map]; rfl

theorem sumBase_filter (f : Event C → Bool) (es : List (Event C)) :
    sumBase (es.filter f) = sumBase ((fills es).filter f) + sumBase ((es.filter Event.isOut).filter f) := by
  induction es with
  | nil => rfl
  | cons e es ih =>
    cases e <;> simp only [fills, List.filter_cons, Event.isFill, Event.isOut, if_true, if_false, Bool.false_eq_true] at ih ⊢ <;>
      split <;> (try simp only [sumBase_cons]) <;> omega

variable [CallbackInfo C] {m : Market C} {c : Config} {is : List (Instr C)} {L : Log C}

/-- The summaries of the successful new orders of a history (`processor/new_order.rs` 151-155: what `process` returns), oldest
first. -/
def summaries (m : Market C) : List (Instr C) → List OrderSummary
  | [] => []
  | i :: is =>
    (match i with
      | .newOrder p => (match m.newOrder p with | .ok (s, _) => [s] | .error _ => [])
      | _ => []) ++ summaries (m.step i) is

/-- Sets of ids. -/
theorem volume_ids (h : HistoryOf c is m L) (hlen : is.length ≤ 2 ^ 63) (q : Nat → Bool) :
    sumQty (L.posted.filter (fun o => q o.id)) = sumBase (L.events.filter (fun e => q e.id)) +
      sumQty (L.cancelled.filter (fun o => q o.id)) + sumQty ((allResting m).filter (fun o => q o.id)) := by
  have := sum_of_keys q _ (L.posted.map (fun o => (o.id, o.qty)))
    (L.events.map (fun e => (e.id, e.base)) ++ (L.cancelled.map (fun o => (o.id, o.qty)) ++
      (allResting m).map (fun o => (o.id, o.qty)))) (Nat.le_refl _) (fun k => by
    have hq := (h.inv hlen).qty k
    simp only [List.filter_append, List.map_append, List.sum_append]
    rw [sumQty_keys (fun i => i == k), sumQty_keys (fun i => i == k), sumQty_keys (fun i => i == k),
      sumBase_keys (fun i => i == k), sumBase_filter]
    have e1 : (fills L.events).filter (fun e => e.id == k) = fillsOf k L.events := by
      unfold fills fillsOf; rw [List.filter_filter]; simp only [Bool.and_comm]
    have e2 : (L.events.filter Event.isOut).filter (fun e => e.id == k) = outsOf k L.events := by
      unfold outsOf; rw [List.filter_filter]; simp only [Bool.and_comm]
    rw [e1, e2]
    unfold ofId at hq
    omega)
  simp only [List.filter_append, List.map_append, List.sum_append] at this
  rw [sumQty_keys, sumQty_keys, sumQty_keys, sumBase_keys] at this
  omega

/-- C115: choose any set of orders by id and callback information, for example a side, a price, or the orders of one user.
What they were posted with is what was traded of them, what was taken out, what was cancelled, and what rests. -/
theorem C115_volume (h : HistoryOf c is m L) (hlen : is.length ≤ 2 ^ 63) (P : Nat → C → Bool) :
    sumQty (L.posted.filter (fun o => P o.id o.cb)) =
      sumBase ((fills L.events).filter (fun e => P e.id e.makerCb)) +
      sumBase ((L.events.filter Event.isOut).filter (fun e => P e.id e.makerCb)) +
      sumQty (L.cancelled.filter (fun o => P o.id o.cb)) +
      sumQty ((allResting m).filter (fun o => P o.id o.cb)) := by
  classical
  have hi := h.inv hlen
  have hn := (C10_unique_ids h hlen).1
  let q : Nat → Bool := fun id => decide (∃ x ∈ L.posted, x.id = id ∧ P id x.cb = true)
  have agree : ∀ id cb, (∃ x ∈ L.posted, x.id = id ∧ x.cb = cb) → P id cb = q id := by
    rintro id cb ⟨x, hx, rfl, rfl⟩
    rw [Bool.eq_iff_iff, decide_eq_true_iff]
    refine ⟨fun hp => ⟨x, hx, rfl, hp⟩, ?_⟩
    rintro ⟨y, hy, e, hp⟩
    obtain rfl := List.inj_on_of_nodup_map hn hy hx e
    exact hp
  have v := volume_ids h hlen q
  rw [← sumBase_filter]
  rw [List.filter_congr (fun o ho => agree o.id o.cb ⟨o, ho, rfl, rfl⟩),
    List.filter_congr (l := L.events) (fun e he => agree e.id e.makerCb (hi.evs e he)),
    List.filter_congr (l := L.cancelled) (fun o ho => agree o.id o.cb (hi.can o ho)),
    List.filter_congr (l := allResting m) (fun o ho => agree o.id o.cb (hi.rest o ho))]
  exact v

theorem summaries_append : ∀ (is js : List (Instr C)) (m : Market C),
    summaries m (is ++ js) = summaries m is ++ summaries (m.run is) js
  | [], _, _ => rfl
  | i :: is, js, m => by
    show _ ++ summaries (m.step i) (is ++ js) = (_ ++ summaries (m.step i) is) ++ summaries ((m.step i).run is) js
    rw [summaries_append is js, List.append_assoc]

/-- C115: the base quantities traders are told of add up to what was traded and what was posted. -/
theorem C115_told (hv : c.Valid) (hok : ∀ i ∈ is, i.Ok) (c0 : C) :
    ((summaries (c.market c0) is).map OrderSummary.totalBaseQty).sum =
      sumBase (fills (runLog (c.market c0) is).events) + sumQty (runLog (c.market c0) is).posted ∧
    ((summaries (c.market c0) is).map OrderSummary.totalBaseQtyPosted).sum = sumQty (runLog (c.market c0) is).posted := by
  induction is using List.reverseRecOn with
  | nil => exact ⟨rfl, rfl⟩
  | append_singleton is i ih =>
    have hr : ReachBy c is ((c.market c0).run is) := ⟨hv, fun j hj => hok j (by simp [hj]), c0, rfl⟩
    have hi := hok i (by simp)
    obtain ⟨i1, i2⟩ := ih (fun j hj => hok j (by simp [hj]))
    rw [summaries_append, runLog_snoc]
    generalize (c.market c0).run is = m at hr ⊢
    simp only [Log.append, fills_append, sumBase_append, sumQty_append, List.map_append, List.sum_append]
    rw [i1, i2]
    cases i with
    | newOrder p =>
      cases he : m.newOrder p with
      | error e => simp [summaries, stepLog, he]
      | ok x =>
        obtain ⟨s, m'⟩ := x
        have h5 := (C05_summary hr.reachable hi he).1
        have hp : sumQty (postedBy p s) = s.totalBaseQtyPosted := by
          unfold postedBy
          cases hid : s.postedOrderId with
          | some id => simp [sumQty]
          | none => exact (C15_not_posted hr.reachable hi he hid).1.symm
        simp only [summaries, stepLog, he, List.append_nil, List.map_cons, List.map_nil, List.sum_cons, List.sum_nil, hp]
        omega
    | cancelOrder id => cases he : m.cancelOrder id <;> simp [summaries, stepLog, he]
    | massCancelOrders ids => cases he : m.massCancelOrders ids <;> simp [summaries, stepLog, he]
    | consumeEvents n => cases he : m.consumeEvents n <;> simp [summaries, stepLog, he]

/-- C115: the market in balance. The base quantities the traders were told of are twice the quantity traded, and what was
taken out, cancelled, or rests. -/
theorem C115_balance (hv : c.Valid) (hok : ∀ i ∈ is, i.Ok) (hlen : is.length ≤ 2 ^ 63) (c0 : C) :
    ((summaries (c.market c0) is).map OrderSummary.totalBaseQty).sum =
      2 * sumBase (fills (runLog (c.market c0) is).events) +
      sumBase ((runLog (c.market c0) is).events.filter Event.isOut) + sumQty (runLog (c.market c0) is).cancelled +
      sumQty (allResting ((c.market c0).run is)) := by
  have h1 := (C115_told hv hok c0).1
  have h2 := C115_volume (C := C) ⟨hv, hok, c0, rfl, rfl⟩ hlen (fun _ _ => true)
  simp only [List.filter_true] at h2
  omega

/-- C115: the number of the next order is at least the number of orders posted, and at most the number of new orders. -/
theorem C115_numbers (h : HistoryOf c is m L) (hlen : is.length ≤ 2 ^ 63) :
    L.posted.length ≤ m.queue.header.seqNum ∧ m.queue.header.seqNum ≤ newOrders is := by
  constructor
  · have hi := h.inv hlen
    have hn : (L.posted.map (fun o => seqOfId o.id)).Nodup := by
      rw [List.Nodup, List.pairwise_map]
      exact hi.seqs.imp (fun hlt => Nat.ne_of_lt hlt)
    have hs : L.posted.map (fun o => seqOfId o.id) ⊆ List.range m.queue.header.seqNum := by
      intro k hk
      obtain ⟨o, ho, rfl⟩ := List.mem_map.1 hk
      exact List.mem_range.2 (hi.seq o ho)
    have := (List.subperm_of_subset hn hs).length_le
    simpa using this
  · clear hlen
    induction is using List.reverseRecOn generalizing m L with
    | nil =>
      obtain ⟨_, _, c0, rfl, _⟩ := h
      exact Nat.zero_le _
    | append_singleton is i ih =>
      obtain ⟨m0, L0, h0, rfl, rfl, hi⟩ := h.snoc
      have h1 := ih h0
      rw [newOrders_append]
      obtain ⟨k1, k2, _⟩ := C11_next_id h0.reachBy
      cases i with
      | newOrder p =>
        have e : newOrders [Instr.newOrder p] = 1 := rfl
        cases he : m0.newOrder p with
        | error x =>
          have hs : m0.step (.newOrder p) = m0 := by simp only [Market.step, Market.exec, he]; rfl
          rw [hs]; omega
        | ok x =>
          obtain ⟨s, m'⟩ := x
          have hs : m0.step (.newOrder p) = m' := by simp only [Market.step, Market.exec, he]; rfl
          rw [hs]
          rcases (k1 p s m' hi he).2 with ⟨_, e2⟩ | ⟨_, e2⟩ <;> omega
      | cancelOrder id => rw [k2 _ (fun p => by simp)]; omega
      | massCancelOrders ids => rw [k2 _ (fun p => by simp)]; omega
      | consumeEvents n => rw [k2 _ (fun p => by simp)]; omega

/-! ### Concrete cases -/

/-- The asks; the orders of one user. -/
example := C115_volume demo_history (by decide) (fun id _ => decide (id % 2 ^ 64 < 2 ^ 63))
example (u : DemoCb) := C115_volume demo_history (by decide) (fun _ cb => cb == u)
example := C115_numbers demo_history (by decide)
/-- 56 = 2 * 11 + 10 + 11 + 13. -/
example : [((summaries (demoCfg.market ⟨0, 0⟩) demoLong).map OrderSummary.totalBaseQty).sum,
    sumBase (fills demoLog.events), sumBase (demoLog.events.filter Event.isOut), sumQty demoLog.cancelled,
    sumQty (allResting demoEnd), demoLog.posted.length, demoEnd.queue.header.seqNum, newOrders demoLong] =
    [56, 11, 10, 11, 13, 8, 8, 8] := by decide +kernel
example (c0 : DemoCb) := C115_balance demo_history.1 demo_history.2.1 (by decide) c0
example (c0 : DemoCb) := C115_told demo_history.1 demo_history.2.1 c0

end AOB
