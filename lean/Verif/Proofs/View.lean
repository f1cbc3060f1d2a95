import Verif.Proofs.Reach
import Verif.Proofs.StepFacts
/-
A successful new order on a reachable market, in terms of what can be observed.
-/
namespace AOB
variable {C : Type}

/-- Bids and asks never share an id. -/
theorem RefInv.ids_ne {a : RefMarket C} (h : RefInv a) {side : Side} {x y : Order C}
    (hx : x ∈ a.orders side) (hy : y ∈ a.orders side.opposite) : x.id ≠ y.id := by
  intro he
  have hp : x.price = y.price := by simp only [Order.price, he]
  cases side
  · have := h.uncrossed x hx y hy; omega
  · have := h.uncrossed y hy x hx; omega

theorem RefInv.nodup {a : RefMarket C} (h : RefInv a) (side : Side) : ((a.orders side).map Order.id).Nodup := by
  rw [List.Nodup, List.pairwise_map]
  refine (h.sorted side).imp ?_
  intro x y hxy
  cases side <;> simp only [Side.before] at hxy <;> omega

variable [CallbackInfo C]

/-- Everything about one successful new order. `r` is the result of matching, `ex` the events of the posting. -/
structure View (m m' : Market C) (p : NewOrderParams C) (s : OrderSummary) (a a' : RefMarket C)
    (n : Nat) (r : MatchOut C) (ex : List (Event C)) : Prop where
  known : Known m a
  known' : Known m' a'
  ok : NewOk a p s a' n r
  rest : ∀ side, resting m side = a.orders side
  rest' : ∀ side, resting m' side = a'.orders side
  pend : pending m = a.events
  pend' : pending m' = a.events ++ (r.events ++ ex)
  em : emitted m m' = r.events ++ ex
  post : (NoPost a p s a' r ∧ ex = []) ∨ (Refused a p s a' r ∧ ex = []) ∨
    ∃ kept ev, Posted a p s a' r kept ev ∧ ex = evictEvents p.side ev
  ex_own : ∀ e ∈ ex, ∃ w ∈ a.orders p.side, e = .out p.side w.id w.qty w.cb

theorem Known.view {m m' : Market C} {a : RefMarket C} (h : Known m a) {p : NewOrderParams C}
    (hp : (Instr.newOrder p).Ok) {s} (he : m.newOrder p = .ok (s, m')) :
    ∃ a' n r ex, a.newOrder p = .ok (s, a') ∧ View m m' p s a a' n r ex := by
  obtain ⟨a', h1, h2⟩ := h.newOrder_ok hp he
  obtain ⟨n, r, hn, hc⟩ := newOrder_cases h1
  have em : ∀ {es}, a'.events = a.events ++ es → emitted m m' = es := by
    intro es hes
    unfold emitted
    rw [h.rep.pending, h2.rep.pending, hes]
    simp
  rcases hc with hc | hc | ⟨kept, ev, hc⟩
  · exact ⟨a', n, r, [], h1, h, h2, hn, h.rep.resting, h2.rep.resting, h.rep.pending,
      by rw [h2.rep.pending, hc.events, List.append_nil],
      by rw [em hc.events, List.append_nil], Or.inl ⟨hc, rfl⟩, by simp⟩
  · exact ⟨a', n, r, [], h1, h, h2, hn, h.rep.resting, h2.rep.resting, h.rep.pending,
      by rw [h2.rep.pending, hc.events, List.append_nil],
      by rw [em hc.events, List.append_nil], Or.inr (Or.inl ⟨hc, rfl⟩), by simp⟩
  · have hev : a'.events = a.events ++ (r.events ++ evictEvents p.side ev) := by
      rw [hc.events, List.append_assoc]
    refine ⟨a', n, r, evictEvents p.side ev, h1, h, h2, hn, h.rep.resting, h2.rep.resting, h.rep.pending,
      by rw [h2.rep.pending, hev], em hev, Or.inr (Or.inr ⟨kept, ev, hc, rfl⟩), ?_⟩
    intro e he
    rcases hc.evict with ⟨h, _⟩ | ⟨w, h, h', _⟩
    · rw [h] at he; simp [evictEvents] at he
    · rw [h] at he
      simp only [evictEvents, List.mem_singleton] at he
      exact ⟨w, by rw [h']; simp, he⟩

theorem Reachable.view {m m' : Market C} (h : Reachable m) {p : NewOrderParams C}
    (hp : (Instr.newOrder p).Ok) {s} (he : m.newOrder p = .ok (s, m')) :
    ∃ a a' n r ex, View m m' p s a a' n r ex := by
  obtain ⟨a, ha⟩ := h.known
  obtain ⟨a', n, r, ex, _, hv⟩ := ha.view hp he
  exact ⟨a, a', n, r, ex, hv⟩

namespace View
variable {m m' : Market C} {p : NewOrderParams C} {s : OrderSummary} {a a' : RefMarket C}
  {n : Nat} {r : MatchOut C} {ex : List (Event C)}

theorem opp' (h : View m m' p s a a' n r ex) : a'.orders p.side.opposite = r.opp := h.ok.opp

/-- Events of the posting do not name opposite orders. -/
theorem ex_ne (h : View m m' p s a a' n r ex) {x : Order C} (hx : x ∈ a.orders p.side.opposite) :
    ∀ e ∈ ex, e.id ≠ x.id := by
  intro e he
  obtain ⟨w, hw, rfl⟩ := h.ex_own e he
  exact h.known.inv.ids_ne hw hx

/-- Events of the matching do not name own orders. -/
theorem ev_ne (h : View m m' p s a a' n r ex) {x : Order C} (hx : x ∈ a.orders p.side) :
    ∀ e ∈ r.events, e.id ≠ x.id := by
  intro e he heq
  obtain ⟨o, ho, h1, _⟩ := h.ok.steps.named e he
  exact h.known.inv.ids_ne hx ho (heq.symm.trans h1)

theorem fills_ex (h : View m m' p s a a' n r ex) : fills ex = [] := by
  unfold fills
  rw [List.filter_eq_nil_iff]
  intro e he
  obtain ⟨w, _, rfl⟩ := h.ex_own e he
  simp [Event.isFill]

theorem fills (h : View m m' p s a a' n r ex) : fills (emitted m m') = AOB.fills r.events := by
  rw [h.em, fills_append, h.fills_ex, List.append_nil]

/-- A fill was emitted by the matching. -/
theorem mem_fill (h : View m m' p s a a' n r ex) {e : Event C} (he : e ∈ emitted m m')
    (hf : e.isFill = true) : e ∈ r.events := by
  rw [h.em] at he
  rcases List.mem_append.1 he with he | he
  · exact he
  · obtain ⟨w, _, rfl⟩ := h.ex_own e he
    cases hf

end View
end AOB
