import Verif.Props.Cancel
import Verif.Spec.Containers
/-
The event queue is a bounded FIFO queue.
-/
namespace AOB
variable {C : Type}

theorem QRepR.apply {q : EventQueue C} {l : List (EventRef C)} (hq : QRepR q l) {op : QOp C} (hop : op.Ok) :
    ∃ q', q.apply op = .ok q' ∧ QRepR q' (fifo q.events.length l op) ∧ q'.events.length = q.events.length := by
  have hle := hq.length_le
  cases op with
  | fill e m t =>
    simp only [EventQueue.apply, fifo]
    by_cases hr : l.length < q.events.length
    · obtain ⟨q', h1, h2, h3, _⟩ := hq.push_ok hr (e := .fill e) trivial (m := m) (t := some t) (t' := t)
        (fun _ _ => rfl)
      rw [if_pos hr]
      exact ⟨q', by simp only [h1, ok_bind], h2, h3⟩
    · rw [if_neg hr]
      refine ⟨q, ?_, hq, rfl⟩
      simp only [hq.push_full (by omega), ok_bind]
  | out e c =>
    simp only [EventQueue.apply, fifo]
    by_cases hr : l.length < q.events.length
    · obtain ⟨q', h1, h2, h3, _⟩ := hq.push_ok hr (e := .out e) hop (m := c) (t := none) (t' := c)
        (fun _ h => by cases h)
      rw [if_pos hr]
      exact ⟨q', by simp only [h1, ok_bind], h2, h3⟩
    · rw [if_neg hr]
      refine ⟨q, ?_, hq, rfl⟩
      simp only [hq.push_full (by omega), ok_bind]
  | pop n =>
    obtain ⟨q', h1, h2, h3, _⟩ := hq.popN n
    exact ⟨q', h1, h2, by rw [h3]⟩

theorem QRepR.applyAll (ops : List (QOp C)) : ∀ {q : EventQueue C} {l : List (EventRef C)}, QRepR q l →
    (∀ op ∈ ops, op.Ok) → ∃ q', q.applyAll ops = .ok q' ∧ QRepR q' (ops.foldl (fifo q.events.length) l) ∧
      q'.events.length = q.events.length := by
  induction ops with
  | nil => intro q l hq _; exact ⟨q, rfl, hq, rfl⟩
  | cons op ops ih =>
    intro q l hq hop
    obtain ⟨q1, h1, h2, h3⟩ := hq.apply (hop op (by simp))
    obtain ⟨q2, h4, h5, h6⟩ := ih h2 (fun x hx => hop x (List.mem_cons_of_mem _ hx))
    refine ⟨q2, ?_, by rw [h3] at h5; exact h5, h6.trans h3⟩
    unfold EventQueue.applyAll
    rw [h1, ok_bind, h4]

theorem QReach.rep {cap : Nat} {ops : List (QOp C)} {q : EventQueue C} (h : QReach cap ops q) :
    QRepR q (ops.foldl (fifo cap) []) ∧ q.events.length = cap := by
  obtain ⟨h1, h2, h3, c0, h4⟩ := h
  obtain ⟨q', g1, g2, g3⟩ := QRepR.applyAll ops (qrep_zeroed cap c0 h1 h2) h3
  have hz : (EventQueue.zeroed cap c0).events.length = cap := by simp [EventQueue.zeroed]
  rw [h4] at g1
  cases g1
  rw [hz] at g2 g3
  exact ⟨g2, g3⟩

/-- C25: after any sequence of pushes and pops on a fresh queue no operation has failed and iterating the queue
yields exactly the content of the FIFO list, however often the ring has wrapped around. -/
theorem C25_fifo (cap : Nat) (hpos : 0 < cap) (hcap : cap ≤ 2 ^ 62) (c0 : C) (ops : List (QOp C))
    (hops : ∀ op ∈ ops, op.Ok) :
    ∃ q, (EventQueue.zeroed cap c0).applyAll ops = .ok q ∧ q.iter = .ok (ops.foldl (fifo cap) []) := by
  obtain ⟨q, h1, h2, _⟩ := QRepR.applyAll ops (qrep_zeroed cap c0 hpos hcap) hops
  have hz : (EventQueue.zeroed cap c0).events.length = cap := by simp [EventQueue.zeroed]
  rw [hz] at h2
  exact ⟨q, h1, h2.iter⟩

/-- C27: the queue of any history: `iter` succeeds and yields `len` items, and `peek_at(i)` is the `i`-th of them,
or `None` from `len` on. -/
theorem C27_peek {cap : Nat} {ops : List (QOp C)} {q : EventQueue C} (h : QReach cap ops q) :
    ∃ l, q.iter = .ok l ∧ l.length = q.len ∧ (q.isEmpty = true ↔ l = []) ∧
      (∀ i (hi : i < l.length), q.peekAt i = .ok (some l[i])) ∧ ∀ i, l.length ≤ i → q.peekAt i = .ok none := by
  obtain ⟨hr, _⟩ := h.rep
  refine ⟨_, hr.iter, hr.2.1, ?_, ?_, ?_⟩
  · unfold EventQueue.isEmpty
    rw [← hr.2.1]
    simp
  · intro i hi
    rw [hr.peekAt, List.getElem?_eq_getElem hi]
  · intro i hi
    rw [hr.peekAt, List.getElem?_eq_none hi]

/-- C28: a full queue hands the event back; a queue that is not full takes it in at the end. -/
theorem C28_push {cap : Nat} {ops : List (QOp C)} {q : EventQueue C} (h : QReach cap ops q) :
    (q.len = cap → ∀ e m t, q.pushBack e m t = .ok (.refused e)) ∧
    (q.len < cap →
      (∀ e m t, ∃ q' l, q.pushBack (.fill e) (some m) (some t) = .ok (.pushed q') ∧ q.iter = .ok l ∧
        q'.iter = .ok (l ++ [.fill { e with tag := 0 } m t])) ∧
      ∀ e c, (QOp.out e c).Ok → ∃ q' l, q.pushBack (.out e) (some c) none = .ok (.pushed q') ∧ q.iter = .ok l ∧
        q'.iter = .ok (l ++ [.out { e with tag := 1 } c])) := by
  obtain ⟨hr, hl⟩ := h.rep
  have hlen := hr.2.1
  unfold EventQueue.len
  constructor
  · intro hfull e m t
    exact hr.push_full (by omega) e m t
  · intro hroom
    constructor
    · intro e m t
      obtain ⟨q', h1, h2, _⟩ := hr.push_ok (by omega) (e := .fill e) trivial (m := m) (t := some t) (t' := t)
        (fun _ _ => rfl)
      exact ⟨q', _, h1, hr.iter, h2.iter⟩
    · intro e c he
      obtain ⟨q', h1, h2, _⟩ := hr.push_ok (by omega) (e := .out e) he (m := c) (t := none) (t' := c)
        (fun _ h => by cases h)
      exact ⟨q', _, h1, hr.iter, h2.iter⟩

/-- C26 on the queue: popping removes the oldest `n` events (or all, if there are fewer) and nothing else. -/
theorem C26_pop {cap : Nat} {ops : List (QOp C)} {q : EventQueue C} (h : QReach cap ops q) (n : Nat) :
    ∃ q' l, q.popN n = .ok q' ∧ q.iter = .ok l ∧ q'.iter = .ok (l.drop n) ∧ q'.len = q.len - min n q.len ∧
      q'.header.seqNum = q.header.seqNum := by
  obtain ⟨hr, _⟩ := h.rep
  obtain ⟨q', h1, h2, _, _, h3⟩ := hr.popN n
  refine ⟨q', _, h1, hr.iter, h2.iter, ?_, h3⟩
  unfold EventQueue.len
  rw [← h2.2.1, ← hr.2.1, List.length_drop]
  omega

variable [CallbackInfo C] {m m' : Market C}

/-- C26: `consume_events(n)` always succeeds, removes exactly the oldest `n` events (all of them if there are
fewer), and touches neither the book nor the sequence number. -/
theorem C26_consume (h : Reachable m) (n : Nat) :
    ∃ m', m.consumeEvents n = .ok m' ∧ pending m' = (pending m).drop n ∧
      (∀ side, resting m' side = resting m side) ∧ m'.queue.header.seqNum = m.queue.header.seqNum := by
  obtain ⟨a, ha⟩ := h.known
  obtain ⟨q', h1, h2, h3, _, h4⟩ := ha.rep.queue.popN n
  refine ⟨{ m with queue := q' }, by unfold Market.consumeEvents; rw [h1, ok_bind], ?_, fun side => rfl, h4⟩
  rw [ha.rep.pending]
  unfold pending Market.events
  simp only
  rw [h2.contents]

/-- The queue of a reachable market: what is read back was pushed (C27 for markets). -/
theorem C27_market (h : Reachable m) :
    ∃ l, m.queue.iter = .ok l ∧ l.length = m.queue.len ∧ l.map EventRef.toEvent = pending m ∧
      ∀ i, m.queue.peekAt i = .ok l[i]? := by
  obtain ⟨a, ha⟩ := h.known
  have hq : QRepR _ _ := ha.rep.queue
  refine ⟨_, hq.iter, hq.2.1, ?_, hq.peekAt⟩
  rw [ha.rep.pending, List.map_map]
  simp [Function.comp_def, Event.toEvent_toRef]

/-! ### Examples -/

/-- Two slots; the ring wraps around, and one push is refused. -/
def demoOps : List (QOp Nat) :=
  [.out ⟨9, 1, List.replicate 14 3, 100, 5⟩ 7, .fill ⟨9, 0, [1, 2, 3, 4, 5, 6], 8, 101, 6⟩ 8 9,
   .out ⟨9, 0, List.replicate 14 0, 102, 5⟩ 10, .pop 1, .out ⟨9, 0, List.replicate 14 255, 103, 4⟩ 11, .pop 0]

example : ((EventQueue.zeroed 2 0).applyAll demoOps >>= EventQueue.iter) =
    .ok [.fill ⟨0, 0, [1, 2, 3, 4, 5, 6], 8, 101, 6⟩ 8 9, .out ⟨1, 0, List.replicate 14 255, 103, 4⟩ 11] := by
  decide +kernel

theorem demoOps_ok : ∀ op ∈ demoOps, op.Ok := by
  simp [demoOps, QOp.Ok]

example := C25_fifo 2 (by decide) (by decide) 0 demoOps demoOps_ok

example : ∃ q : EventQueue Nat, QReach 2 demoOps q ∧ q.len = 2 := by
  obtain ⟨q, h1, h2⟩ := C25_fifo 2 (by decide) (by decide) 0 demoOps demoOps_ok
  have hr : QReach 2 demoOps q := ⟨by decide, by decide, demoOps_ok, 0, h1⟩
  refine ⟨q, hr, ?_⟩
  have := hr.rep.1.2.1
  rw [show q.len = _ from this.symm]
  decide

example : ∃ m', demoAfter.consumeEvents 4 = .ok m' ∧ (pending m').length = 2 := by
  obtain ⟨m', h1, h2, _⟩ := C26_consume (demo_reachable.step demoTake_ok) 4
  refine ⟨m', h1, ?_⟩
  rw [h2]
  decide +kernel

theorem demoOps_reach : ∃ q : EventQueue Nat, QReach 2 demoOps q := by
  obtain ⟨q, h1, _⟩ := C25_fifo 2 (by decide) (by decide) 0 demoOps demoOps_ok
  exact ⟨q, by decide, by decide, demoOps_ok, 0, h1⟩

/-- `C26_pop`, `C27_peek`, `C28_push`: the queue after `demoOps`, which is full. -/
example := C26_pop demoOps_reach.choose_spec 1
example := C27_peek demoOps_reach.choose_spec
example := C28_push demoOps_reach.choose_spec
/-- `C27_market`: six events wait after the purchase of the demo. -/
example := C27_market (demo_reachable.step demoTake_ok)

end AOB
