import Verif.Proofs.Commute
/-
`CancelProvide`: an own order that matching removes could as well have been taken off before (reference engine).
-/
namespace AOB
variable {C : Type} [CallbackInfo C]

omit [CallbackInfo C] in
theorem map_emit_inv {x : Except AoError (MatchOut C)} {es : List (Event C)} {r : MatchOut C}
    (hx : x.map (MatchOut.emit es) = .ok r) : ∃ r0, x = .ok r0 ∧ r = MatchOut.emit es r0 := by
  cases x with
  | error e => cases hx
  | ok r0 => cases hx; exact ⟨r0, rfl, rfl⟩

theorem refMatch_purge {p : NewOrderParams C} {mb : Nat} (hp : p.selfTradeBehavior = .cancelProvide) {x : Order C}
    (hown : CallbackInfo.asCallbackId p.callbackInfo = CallbackInfo.asCallbackId x.cb) :
    ∀ (n room : Nat) (opp : List (Order C)) (b q : Nat) (r : MatchOut C), refMatch p mb n room opp b q true = .ok r →
      (opp.map Order.id).Nodup → x ∈ opp → (∃ e ∈ r.events, e.id = x.id) →
      ∃ n', n = n' + 1 ∧ refMatch p mb n' room (opp.filter (fun y => y.id != x.id)) b q true =
        .ok { r with events := r.events.filter (fun e => e.id != x.id) }
  | 0, _, _, _, _, r, h, _, _, he => by
    simp only [refMatch] at h
    cases h
    obtain ⟨e, he, _⟩ := he
    cases he
  | _ + 1, _, [], _, _, _, _, _, hx, _ => by cases hx
  | n + 1, room, o :: rest, b, q, r, h, hnd, hx, he => by
    refine ⟨n, rfl, ?_⟩
    have ih := refMatch_purge (mb := mb) hp hown n
    rw [List.map_cons, List.nodup_cons] at hnd
    by_cases hox : o = x
    · subst hox
      have hne : ∀ y ∈ rest, y.id ≠ o.id := fun y hy e => hnd.1 (List.mem_map.2 ⟨y, hy, e⟩)
      rw [List.filter_cons_of_neg (by simp), filter_without_self hne]
      simp only [refMatch] at h
      split_ifs at h with c1 c2 c3 c4 c5 c6 c7 c8
      · cases h; obtain ⟨e, he, _⟩ := he; cases he
      · cases h; obtain ⟨e, he, _⟩ := he; cases he
      · obtain ⟨r0, h0, rfl⟩ := map_emit_inv h
        rw [refMatch_larger n (room - 1) room _ _ _ _ r0 (by omega) h0]
        congr 1
        have hev : r0.events.filter (fun e => e.id != o.id) = r0.events := by
          rw [List.filter_eq_self]
          intro e he
          obtain ⟨k, _, hs, _⟩ := refMatch_ok h0 (fun _ => rfl)
          simpa using hs.not_named (id := o.id) hne e he
        simp only [MatchOut.emit, List.cons_append, List.nil_append]
        rw [List.filter_cons_of_neg (by simp [Event.id]), hev]
      all_goals exact absurd ⟨by rw [hp]; decide, hown⟩ c3
    · have hxr : x ∈ rest := by
        rcases List.mem_cons.1 hx with rfl | h
        · exact absurd rfl hox
        · exact h
      have hoid : o.id ≠ x.id := fun e => hnd.1 (List.mem_map.2 ⟨x, hxr, e.symm⟩)
      rw [List.filter_cons_of_pos (by simp [hoid])]
      simp only [refMatch] at h
      have tl : ∀ {es : List (Event C)} {r0 : MatchOut C}, (∀ e ∈ es, e.id = o.id) →
          (∃ e ∈ (MatchOut.emit es r0).events, e.id = x.id) → ∃ e ∈ r0.events, e.id = x.id := by
        rintro es r0 hes ⟨e, he, hid⟩
        rcases List.mem_append.1 he with he | he
        · exact absurd ((hes e he).symm.trans hid) hoid
        · exact ⟨e, he, hid⟩
      have fin : ∀ {es : List (Event C)} {r0 : MatchOut C}, (∀ e ∈ es, e.id = o.id) →
          MatchOut.emit es { r0 with events := r0.events.filter (fun e => e.id != x.id) } =
            { MatchOut.emit es r0 with events := (MatchOut.emit es r0).events.filter (fun e => e.id != x.id) } := by
        intro es r0 hes
        simp only [MatchOut.emit, List.filter_append]
        congr 2
        symm
        rw [List.filter_eq_self]
        intro e he
        rw [hes e he]; simpa using hoid
      split_ifs at h with c1 c2 c3 c4 c5 c6 c7 c8
      · cases h; obtain ⟨e, he, _⟩ := he; cases he
      · cases h; obtain ⟨e, he, _⟩ := he; cases he
      · obtain ⟨r0, h0, rfl⟩ := map_emit_inv h
        have hes : ∀ e ∈ [Event.out p.side.opposite o.id o.qty o.cb], e.id = o.id := by simp [Event.id]
        obtain ⟨n', rfl, g⟩ := ih _ _ _ _ r0 h0 hnd.2 hxr (tl hes he)
        simp only [refMatch]
        rw [if_neg c1, if_neg c2, if_pos c3, if_neg c4, if_neg c5, g]
        exact congrArg _ (fin hes)
      · obtain ⟨r0, h0, rfl⟩ := map_emit_inv h
        have hes : ∀ e ∈ [Event.fill p.side o.id (min (min o.qty b) (affordable q o.price))
            (worth p.side (min (min o.qty b) (affordable q o.price)) o.price) o.cb p.callbackInfo,
            Event.out p.side.opposite o.id (o.qty - min (min o.qty b) (affordable q o.price)) o.cb], e.id = o.id := by
          simp [Event.id]
        obtain ⟨n', rfl, g⟩ := ih _ _ _ _ r0 h0 hnd.2 hxr (tl hes he)
        simp only [refMatch]
        rw [if_neg c1, if_neg c2, if_neg c3, if_pos c6, if_neg c7, g]
        exact congrArg _ (fin hes)
      · obtain ⟨r0, h0, rfl⟩ := map_emit_inv h
        have hes : ∀ e ∈ [Event.fill p.side o.id (min (min o.qty b) (affordable q o.price))
            (worth p.side (min (min o.qty b) (affordable q o.price)) o.price) o.cb p.callbackInfo], e.id = o.id := by
          simp [Event.id]
        obtain ⟨n', rfl, g⟩ := ih _ ({ o with qty := o.qty - min (min o.qty b) (affordable q o.price) } :: rest) _ _ r0 h0
          (List.nodup_cons.2 hnd) (List.mem_cons_of_mem _ hxr) (tl hes he)
        rw [List.filter_cons_of_pos (by simp [hoid])] at g
        simp only [refMatch]
        rw [if_neg c1, if_neg c2, if_neg c3, if_neg c6, if_neg c8, g]
        exact congrArg _ (fin hes)

/-- When matching removes no own order, the self-trade behaviour makes no difference. -/
theorem refMatch_noSelf {p p' : NewOrderParams C} {mb : Nat} (hp : p.selfTradeBehavior = .cancelProvide)
    (h1 : p'.postOnly = p.postOnly) (h2 : p'.side = p.side) (h3 : p'.limitPrice = p.limitPrice)
    (h5 : p'.callbackInfo = p.callbackInfo) :
    ∀ (n room : Nat) (opp : List (Order C)) (b q : Nat) (cr : Bool) (r : MatchOut C),
      refMatch p mb n room opp b q cr = .ok r →
      (∀ e ∈ r.events, CallbackInfo.asCallbackId p.callbackInfo ≠ CallbackInfo.asCallbackId e.makerCb) →
      refMatch p' mb n room opp b q cr = .ok r
  | 0, _, _, _, _, _, _, h, _ => h
  | _ + 1, _, [], _, _, _, _, h, _ => h
  | n + 1, room, o :: rest, b, q, cr, r, h, he => by
    have ih := refMatch_noSelf (mb := mb) hp h1 h2 h3 h5 n
    simp only [refMatch] at h ⊢
    simp only [h1, h2, h3, h5]
    split_ifs at h with c1 c2 c3 c4 c5 c6 c7 c8
    · rw [if_pos c1]; exact h
    · rw [if_neg c1, if_pos c2]; exact h
    · obtain ⟨r0, h0, rfl⟩ := map_emit_inv h
      exact absurd c3.2 (he _ (List.mem_append_left _ (List.mem_cons_self ..)))
    · obtain ⟨r0, h0, rfl⟩ := map_emit_inv h
      have hne := he _ (List.mem_append_left _ (List.mem_cons_self ..))
      rw [if_neg c1, if_neg c2, if_neg (fun hh => hne hh.2), if_pos c6, if_neg c7,
        ih _ _ _ _ _ r0 h0 (fun e hh => he e (List.mem_append_right _ hh))]
      rfl
    · obtain ⟨r0, h0, rfl⟩ := map_emit_inv h
      have hne := he _ (List.mem_append_left _ (List.mem_cons_self ..))
      rw [if_neg c1, if_neg c2, if_neg (fun hh => hne hh.2), if_neg c6, if_neg c8,
        ih _ _ _ _ _ r0 h0 (fun e hh => he e (List.mem_append_right _ hh))]
      rfl

omit [CallbackInfo C] in
theorem refPost_larger {side : Side} {cap r1 r2 : Nat} {own : List (Order C)} {o : Order C} {po : PostOut C} (hr : r1 ≤ r2)
    (h : refPost side cap r1 own o = .ok po) : refPost side cap r2 own o = .ok po ∧ ∀ e ∈ po.events, ∃ w ∈ own, e.id = w.id := by
  unfold refPost at h ⊢
  by_cases c1 : own.length < cap
  · rw [if_pos c1] at h ⊢; cases h; exact ⟨rfl, by simp⟩
  rw [if_neg c1] at h ⊢
  cases hl : own.getLast? with
  | none => rw [hl] at h; cases h; exact ⟨rfl, by simp⟩
  | some w =>
    rw [hl] at h
    simp only at h ⊢
    by_cases c2 : side.asGood w.price o.price = true
    · rw [if_pos c2] at h ⊢; cases h; exact ⟨rfl, by simp⟩
    rw [if_neg c2] at h ⊢
    by_cases c3 : r1 = 0
    · rw [if_pos c3] at h; cases h
    rw [if_neg c3] at h
    rw [if_neg (by omega)]
    cases h
    refine ⟨rfl, ?_⟩
    intro e he
    rw [List.mem_singleton] at he
    subst he
    exact ⟨w, List.mem_of_getLast? hl, rfl⟩

omit [CallbackInfo C] in
theorem finish_purge {a a' : RefMarket C} {p : NewOrderParams C} {r : MatchOut C} {s : OrderSummary} {id : Nat}
    (hid : ∀ o ∈ a.orders p.side, o.id ≠ id) (h : a.finish p r = .ok (s, a')) :
    (a.without id).finish p { r with events := r.events.filter (fun e => e.id != id) } =
      .ok (s, { a' with events := a.events ++ (a'.events.drop a.events.length).filter (fun e => e.id != id) }) := by
  have hset : (a.without id).setOrders p.side.opposite r.opp = a.setOrders p.side.opposite r.opp := by
    have := filter_without_self hid
    unfold RefMarket.without RefMarket.setOrders
    cases hs : p.side <;> rw [hs] at this <;> simp only [RefMarket.orders] at this <;> simp only [Side.opposite, this]
  have hcap : (a.without id).cap p.side = a.cap p.side := cap_without ..
  have hor : ∀ ev, ({ a.setOrders p.side.opposite r.opp with events := ev } : RefMarket C).orders p.side = a.orders p.side := by
    intro ev; cases p.side <;> rfl
  unfold RefMarket.finish at h ⊢
  simp only [hset, hcap, hor, show (a.without id).seq = a.seq from rfl, show (a.without id).minBase = a.minBase from rfl,
    show (a.without id).capEvents = a.capEvents from rfl, show (a.without id).events = a.events from rfl] at h ⊢
  split_ifs at h ⊢ with c1 c2
  · cases h
    simp
  · have hle : a.capEvents - (a.events ++ r.events).length ≤
        a.capEvents - (a.events ++ r.events.filter (fun e => e.id != id)).length := by
      have := List.length_filter_le (fun e : Event C => e.id != id) r.events
      simp only [List.length_append]
      omega
    cases hpo : refPost p.side (a.cap p.side) (a.capEvents - (a.events ++ r.events).length) (a.orders p.side)
      ⟨mkOrderId p.side p.limitPrice a.seq, min (affordable r.quote p.limitPrice) r.base, p.callbackInfo⟩ with
    | error e => rw [hpo] at h; cases h
    | ok po =>
      obtain ⟨g1, g2⟩ := refPost_larger hle hpo
      rw [hpo] at h
      rw [g1]
      simp only at h ⊢
      have hf : po.events.filter (fun e => e.id != id) = po.events := by
        rw [List.filter_eq_self]
        intro e he
        obtain ⟨w, hw, e1⟩ := g2 e he
        rw [e1]; simpa using hid w hw
      split_ifs at h ⊢ with c3
      · cases h
        congr 2
        simp only [List.append_assoc, List.drop_left, List.filter_append, hf]
        cases p.side <;> rfl
      · cases h
        simp

/-- `new_order` with `CancelProvide`, and taking off one of the own orders that it removes. -/
theorem newOrder_purge {a a' : RefMarket C} {p : NewOrderParams C} {s : OrderSummary} (hinv : RefInv a)
    (hp : p.selfTradeBehavior = .cancelProvide) (h : a.newOrder p = .ok (s, a')) {x : Order C}
    (hown : CallbackInfo.asCallbackId p.callbackInfo = CallbackInfo.asCallbackId x.cb)
    (hx : x ∈ a.orders p.side.opposite) (he : ∃ e ∈ a'.events.drop a.events.length, e.id = x.id) :
    1 ≤ p.matchLimit ∧ (a.without x.id).newOrder { p with matchLimit := p.matchLimit - 1 } =
      .ok (s, { a' with events := a.events ++ (a'.events.drop a.events.length).filter (fun e => e.id != x.id) }) := by
  obtain ⟨n, r, hn, hc⟩ := newOrder_cases h
  have hid : ∀ o ∈ a.orders p.side, o.id ≠ x.id := fun o ho => hinv.ids_ne ho hx
  have her : ∃ e ∈ r.events, e.id = x.id := by
    obtain ⟨e, he, e1⟩ := he
    refine ⟨e, ?_, e1⟩
    rcases hc with hc | hc | ⟨kept, ev, hc⟩
    · rw [hc.events, List.drop_left] at he; exact he
    · rw [hc.events, List.drop_left] at he; exact he
    · rw [hc.events, List.append_assoc, List.drop_left] at he
      rcases List.mem_append.1 he with he | he
      · exact he
      · exfalso
        rcases hc.evict with ⟨rfl, -⟩ | ⟨w, rfl, hk, -⟩
        · cases he
        · simp only [evictEvents, List.mem_singleton] at he
          subst he
          exact hid w (by rw [hk]; simp) e1
  obtain ⟨n', hn', hr⟩ := refMatch_purge hp hown _ _ _ _ _ r hn.run (hinv.nodup _) hx her
  refine ⟨by omega, ?_⟩
  obtain ⟨t1, t2, t3⟩ := hn.tick
  have tick' : ¬ (p.limitPrice % a.tick ≠ 0 ∨ (p.postAllowed = true ∧ p.limitPrice < a.tick)) := by
    rintro (h | ⟨h, h'⟩)
    · exact h t2
    · have := t3 h; omega
  rw [newOrder_eq, if_neg (by omega), if_neg tick', hn.run] at h
  rw [newOrder_eq, show (a.without x.id).tick = a.tick from rfl, if_neg (by omega), if_neg tick']
  rw [refMatch_params (p := p) (p' := { p with matchLimit := p.matchLimit - 1 }) rfl rfl rfl rfl rfl, orders_without,
    show (a.without x.id).capEvents - (a.without x.id).events.length = a.capEvents - a.events.length from rfl,
    show (a.without x.id).minBase = a.minBase from rfl,
    show ({ p with matchLimit := p.matchLimit - 1 } : NewOrderParams C).matchLimit = n' by simp only; omega]
  rw [hr]
  exact finish_purge hid h

/-- When no event is about an own order, the self-trade behaviour makes no difference. -/
theorem newOrder_noSelf {a a' : RefMarket C} {p : NewOrderParams C} {s : OrderSummary}
    (hp : p.selfTradeBehavior = .cancelProvide) (h : a.newOrder p = .ok (s, a'))
    (hev : ∀ e ∈ a'.events.drop a.events.length, e.makerSide = p.side.opposite →
      CallbackInfo.asCallbackId p.callbackInfo ≠ CallbackInfo.asCallbackId e.makerCb) (b : SelfTradeBehavior) :
    a.newOrder { p with selfTradeBehavior := b } = .ok (s, a') := by
  obtain ⟨n, r, hn, hc⟩ := newOrder_cases h
  have hr : ∀ e ∈ r.events, CallbackInfo.asCallbackId p.callbackInfo ≠ CallbackInfo.asCallbackId e.makerCb := by
    intro e he
    obtain ⟨o, _, _, _, h3⟩ := hn.steps.named e he
    refine hev e ?_ h3
    rcases hc with hc | hc | ⟨kept, ev, hc⟩ <;> rw [hc.events] <;> simp [he]
  have hm := refMatch_noSelf (p' := { p with selfTradeBehavior := b }) hp rfl rfl rfl rfl _ _ _ _ _ _ r hn.run hr
  obtain ⟨t1, t2, t3⟩ := hn.tick
  have tick' : ¬ (p.limitPrice % a.tick ≠ 0 ∨ (p.postAllowed = true ∧ p.limitPrice < a.tick)) := by
    rintro (h | ⟨h, h'⟩)
    · exact h t2
    · have := t3 h; omega
  rw [newOrder_eq, if_neg (by omega), if_neg tick', hn.run] at h
  rw [newOrder_eq, if_neg (by omega), if_neg tick']
  have hm' : refMatch { p with selfTradeBehavior := b } a.minBase
      ({ p with selfTradeBehavior := b } : NewOrderParams C).matchLimit (a.capEvents - a.events.length)
      (a.orders ({ p with selfTradeBehavior := b } : NewOrderParams C).side.opposite)
      ({ p with selfTradeBehavior := b } : NewOrderParams C).maxBaseQty
      ({ p with selfTradeBehavior := b } : NewOrderParams C).maxQuoteQty true = .ok r := hm
  rw [hm']
  exact h

end AOB
