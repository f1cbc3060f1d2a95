import Verif.Proofs.Purge
import Verif.Props.Commute
import Verif.Spec.Own
/-
`CancelProvide` is cancelling one's own orders and then trading (C91).
-/
namespace AOB
variable {C : Type} [CallbackInfo C] {m m' : Market C} {p : NewOrderParams C} {s : OrderSummary}

theorem purge_all : ∀ (gone : List (Order C)) {m : Market C} {a a' : RefMarket C} {p : NewOrderParams C}, Known m a →
    a.seq ≤ 2 ^ 63 → p.selfTradeBehavior = .cancelProvide → a.newOrder p = .ok (s, a') → (gone.map Order.id).Nodup →
    (∀ x ∈ gone, x ∈ a.orders p.side.opposite ∧
      CallbackInfo.asCallbackId p.callbackInfo = CallbackInfo.asCallbackId x.cb ∧
      ∃ e ∈ a'.events.drop a.events.length, e.id = x.id) →
    gone.length ≤ p.matchLimit ∧ ∃ ac, Known (m.run (gone.map (fun o => .cancelOrder o.id))) ac ∧ ac.events = a.events ∧
      ac.newOrder { p with matchLimit := p.matchLimit - gone.length } =
        .ok (s, { a' with events := a.events ++
          (a'.events.drop a.events.length).filter (fun e => decide (e.id ∉ gone.map Order.id)) }) := by
  intro gone
  induction gone with
  | nil =>
    intro m a a' p hk _ _ h _ _
    refine ⟨Nat.zero_le _, a, hk, rfl, ?_⟩
    have he : a'.events = a.events ++ a'.events.drop a.events.length := by
      obtain ⟨n, r, hn, hc⟩ := newOrder_cases h
      rcases hc with hc | hc | ⟨kept, ev, hc⟩ <;> rw [hc.events] <;> simp
    simp only [List.map_nil, List.not_mem_nil, not_false_eq_true, decide_true, List.filter_true, ← he]
    exact h
  | cons x gone ih =>
    intro m a a' p hk hseq hp h hnd hg
    rw [List.map_cons, List.nodup_cons] at hnd
    obtain ⟨hx, hown, hev⟩ := hg x (by simp)
    obtain ⟨hl, h1⟩ := newOrder_purge hk.inv hp h hown hx hev
    obtain ⟨mc, hc, kc⟩ := hk.cancel hseq (side := p.side.opposite) (x := x) (by rw [hk.rep.resting]; exact hx)
    have hstep : m.step (.cancelOrder x.id) = mc := by simp only [Market.step, Market.exec, hc]; rfl
    have hdrop : ∀ l : List (Event C), (a.events ++ l).drop (a.without x.id).events.length = l := by
      intro l; exact List.drop_left ..
    obtain ⟨hl2, ac, k2, e2, h2⟩ := ih (p := { p with matchLimit := p.matchLimit - 1 }) kc hseq hp h1 hnd.2 (by
      intro y hy
      obtain ⟨y1, y2, e, he, hid⟩ := hg y (List.mem_cons_of_mem _ hy)
      have hyx : y.id ≠ x.id := fun hh => hnd.1 (List.mem_map.2 ⟨y, hy, hh⟩)
      refine ⟨?_, y2, e, ?_, hid⟩
      · rw [orders_without, List.mem_filter]
        exact ⟨y1, by simpa using hyx⟩
      · rw [hdrop, List.mem_filter]
        exact ⟨he, by rw [hid]; simpa using hyx⟩)
    simp only at hl2
    refine ⟨by rw [List.length_cons]; omega, ac, ?_, e2, ?_⟩
    · show Known ((m.step (.cancelOrder x.id)).run _) ac
      rw [hstep]; exact k2
    · rw [hdrop] at h2
      simp only at h2
      rw [show p.matchLimit - 1 - gone.length = p.matchLimit - (x :: gone).length by rw [List.length_cons]; omega] at h2
      rw [h2]
      congr 3
      rw [List.filter_filter, show (a.without x.id).events = a.events from rfl]
      congr 1
      apply List.filter_congr
      intro e _
      by_cases hh : e.id = x.id <;> simp [hh]

/-- C91: `new_order` with `CancelProvide` is the cancellation of the own orders that it meets, and then the same `new_order`
with a match limit that is smaller by their number: the answer is the same, the book is the same afterwards, and the events
are the same but for those that announce the removals. The second `new_order` meets no order of its own, so that it may come
with any self-trade behaviour. -/
theorem C91_cancel_provide {c is} (h : ReachBy c is m) (hlen : is.length < 2 ^ 63) (hp : (Instr.newOrder p).Ok)
    (hcp : p.selfTradeBehavior = .cancelProvide) (he : m.newOrder p = .ok (s, m')) (b : SelfTradeBehavior) :
    (ownMet m m' p).length ≤ p.matchLimit ∧
    ∃ m2, (m.run ((ownMet m m' p).map (fun o => .cancelOrder o.id))).newOrder
        { p with matchLimit := p.matchLimit - (ownMet m m' p).length, selfTradeBehavior := b } = .ok (s, m2) ∧
      (∀ side, resting m2 side = resting m' side) ∧
      emitted (m.run ((ownMet m m' p).map (fun o => .cancelOrder o.id))) m2 =
        (emitted m m').filter (fun e => decide (e.id ∉ (ownMet m m' p).map Order.id)) := by
  obtain ⟨hk, hseq, hpar⟩ := h.known
  generalize (c.ref : RefMarket C).run is = a at hk hseq hpar
  obtain ⟨a', h1, k'⟩ := hk.newOrder_ok hp he
  have hem : emitted m m' = a'.events.drop a.events.length := by
    unfold emitted; rw [hk.rep.pending, k'.rep.pending]
  have hmem : ∀ x ∈ resting m p.side.opposite,
      CallbackInfo.asCallbackId p.callbackInfo = CallbackInfo.asCallbackId x.cb →
      (∃ e ∈ emitted m m', e.id = x.id) → x ∈ ownMet m m' p := by
    rintro x hx h2 ⟨e, h3, h4⟩
    unfold ownMet
    rw [List.mem_filter]
    refine ⟨hx, ?_⟩
    rw [Bool.and_eq_true, decide_eq_true_eq, List.any_eq_true]
    exact ⟨h2, e, h3, by simpa using h4⟩
  have hmem' : ∀ x ∈ ownMet m m' p, x ∈ resting m p.side.opposite ∧
      CallbackInfo.asCallbackId p.callbackInfo = CallbackInfo.asCallbackId x.cb ∧ ∃ e ∈ emitted m m', e.id = x.id := by
    intro x hx
    unfold ownMet at hx
    rw [List.mem_filter, Bool.and_eq_true, decide_eq_true_eq, List.any_eq_true] at hx
    obtain ⟨h1, h2, e, h3, h4⟩ := hx
    exact ⟨h1, h2, e, h3, by simpa using h4⟩
  have hnd : ((ownMet m m' p).map Order.id).Nodup := by
    have := hk.inv.nodup p.side.opposite
    rw [← hk.rep.resting] at this
    exact this.sublist (List.filter_sublist.map _)
  generalize ownMet m m' p = gone at hmem hmem' hnd ⊢
  obtain ⟨hl, ac, k2, e2, h2⟩ := purge_all gone hk (by omega) hcp h1 hnd (by
    intro x hx
    obtain ⟨g1, g2, g3⟩ := hmem' x hx
    rw [hk.rep.resting] at g1
    rw [hem] at g3
    exact ⟨g1, g2, g3⟩)
  refine ⟨hl, ?_⟩
  have h3 := newOrder_noSelf (p := { p with matchLimit := p.matchLimit - gone.length }) hcp h2 (by
    intro e hev hside
    rw [e2] at hev
    simp only [List.drop_left] at hev
    rw [List.mem_filter, decide_eq_true_eq] at hev
    obtain ⟨hev, hid⟩ := hev
    intro hcb
    simp only at hside hcb
    obtain ⟨n, r, hn, hc⟩ := newOrder_cases h1
    have her : e ∈ r.events := by
      rcases hc with hc | hc | ⟨kept, ev, hc⟩
      · rw [hc.events, List.drop_left] at hev; exact hev
      · rw [hc.events, List.drop_left] at hev; exact hev
      · rw [hc.events, List.append_assoc, List.drop_left] at hev
        rcases List.mem_append.1 hev with he | he
        · exact he
        · exfalso
          rcases hc.evict with ⟨rfl, -⟩ | ⟨w, rfl, hk, -⟩
          · cases he
          · simp only [evictEvents, List.mem_singleton] at he
            subst he
            revert hside
            simp only [Event.makerSide]
            cases p.side <;> simp [Side.opposite]
    obtain ⟨o, ho, f1, f2, f3⟩ := hn.steps.named e her
    refine hid (List.mem_map.2 ⟨o, hmem o (by rw [hk.rep.resting]; exact ho) (by rw [← f2]; exact hcb) ⟨e, ?_, f1⟩, f1.symm⟩)
    rw [hem]; exact hev) b
  have hr := newOrder_refines k2.rep k2.inv
    { p with matchLimit := p.matchLimit - gone.length, selfTradeBehavior := b } hp
  rw [h3] at hr
  obtain ⟨m2, r1, r2⟩ := hr
  refine ⟨m2, r1, ?_, ?_⟩
  · intro side
    rw [r2.resting, k'.rep.resting]
    cases side <;> rfl
  · rw [hem]
    unfold emitted
    rw [r2.pending, k2.rep.pending, e2]
    simp

/-- The demo: the own ask in the middle could as well have been cancelled before. -/
example : (ownMet demo demoAfter demoTake).map (fun o => (o.qty, o.cb.user)) = [(7, 3)] := by decide +kernel

example : ∃ m2, (demo.run ((ownMet demo demoAfter demoTake).map (fun o => .cancelOrder o.id))).newOrder
    { demoTake with matchLimit := demoTake.matchLimit - (ownMet demo demoAfter demoTake).length,
                    selfTradeBehavior := .abortTransaction } = .ok (demoSum, m2) :=
  let ⟨_, m2, h, _⟩ := C91_cancel_provide demo_reachBy (by decide) demoTake_ok rfl demo_take .abortTransaction
  ⟨m2, h⟩

end AOB
