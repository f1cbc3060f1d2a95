import Verif.Proofs.Relate
import Verif.Props.Cancel
import Mathlib.Data.List.TakeWhile
/-
Taking an order off the book before or after another instruction (reference engine).
-/
namespace AOB
variable {C : Type}

/-- Without the orders of that id. -/
def RefMarket.without (a : RefMarket C) (id : Nat) : RefMarket C :=
  { a with bids := a.bids.filter (fun x => x.id != id), asks := a.asks.filter (fun x => x.id != id) }

@[simp] theorem orders_without (a : RefMarket C) (id : Nat) (side : Side) :
    (a.without id).orders side = (a.orders side).filter (fun x => x.id != id) := by
  cases side <;> rfl

@[simp] theorem cap_without (a : RefMarket C) (id : Nat) (side : Side) : (a.without id).cap side = a.cap side := by
  cases side <;> rfl

theorem RefMarket.ext_orders {a b : RefMarket C} (h : SameParams a b) (hs : a.seq = b.seq) (he : a.events = b.events)
    (ho : ∀ side, a.orders side = b.orders side) : a = b := by
  obtain ⟨h1, h2, h3, h4⟩ := h
  have b1 := h4 .bid
  have b2 := h4 .ask
  have o1 := ho .bid
  have o2 := ho .ask
  cases a; cases b
  simp only [RefMarket.cap, RefMarket.orders] at *
  subst_vars
  rfl

theorem cancel1_without {a : RefMarket C} (h : RefInv a) (hseq : a.seq ≤ 2 ^ 63) {o : Order C} (ho : o ∈ a.all) :
    a.cancel1 o.id = some (o, a.without o.id) := by
  obtain ⟨a', h1, h2⟩ := cancel1_some h hseq ho
  obtain ⟨p, hs, he⟩ := cancel1_params h1
  rw [h1]
  congr 2
  refine RefMarket.ext_orders (b := a.without o.id) ⟨p.1.symm, p.2.symm, p.3.symm, ?_⟩ hs he ?_
  · intro side; rw [cap_without]; exact (p.4 side).symm
  · intro side; rw [orders_without, h2]

variable [CallbackInfo C]

/-- Nothing wanted any more: matching stops. -/
theorem refMatch_none {p : NewOrderParams C} {mb : Nat} (n room : Nat) (opp : List (Order C)) (q : Nat) (cr : Bool) :
    ∃ cr', refMatch p mb n room opp 0 q cr = .ok ⟨[], opp, 0, q, cr'⟩ := by
  cases n with
  | zero => exact ⟨cr, rfl⟩
  | succ n =>
    cases opp with
    | nil => exact ⟨_, rfl⟩
    | cons o rest =>
      simp only [refMatch]
      by_cases h : (p.postOnly || !p.side.accepts p.limitPrice o.price) = true
      · exact ⟨_, if_pos h⟩
      · rw [if_neg h, if_pos (.inl (by simp))]
        exact ⟨_, rfl⟩

/-- An order that matching does not touch, and that is not what stops it, has no influence on it; nor has one that is
first when nothing is wanted any more. -/
theorem refMatch_without {p : NewOrderParams C} {mb id : Nat} : ∀ (n room : Nat) (opp : List (Order C)) (b q : Nat)
    (cr : Bool) (r : MatchOut C), refMatch p mb n room opp b q cr = .ok r →
    opp.Pairwise (fun u v => p.side.accepts p.limitPrice v.price = true → p.side.accepts p.limitPrice u.price = true) →
    (∀ e ∈ r.events, e.id ≠ id) →
    (∀ o, r.opp.head? = some o → o.id = id → p.side.accepts p.limitPrice o.price = false ∨ r.base = 0) →
    ∃ cr', refMatch p mb n room (opp.filter (fun x => x.id != id)) b q cr =
      .ok { r with opp := r.opp.filter (fun x => x.id != id), crossed := cr' } ∧ (cr' = r.crossed ∨ r.base = 0)
  | 0, _, _, _, _, _, r, h, _, _, _ => by
    simp only [refMatch] at h ⊢
    cases h; exact ⟨_, rfl, .inl rfl⟩
  | _ + 1, _, [], _, _, _, r, h, _, _, _ => by
    simp only [refMatch] at h
    cases h; exact ⟨_, rfl, .inl rfl⟩
  | n + 1, room, o :: rest, b, q, cr, r, h, hm, hev, hhd => by
    have ih := refMatch_without (p := p) (mb := mb) (id := id) n
    rw [List.pairwise_cons] at hm
    have lift : ∀ {x : Except AoError (MatchOut C)} {es : List (Event C)} {r : MatchOut C},
        x.map (MatchOut.emit es) = .ok r → ∃ r0, x = .ok r0 ∧ r = MatchOut.emit es r0 := by
      intro x es r hx
      cases x with
      | error e => cases hx
      | ok r0 => cases hx; exact ⟨r0, rfl, rfl⟩
    by_cases ho : o.id = id
    · have stopped : r = ⟨[], o :: rest, b, q, r.crossed⟩ → p.side.accepts p.limitPrice o.price = false ∨ b = 0 →
          (p.side.accepts p.limitPrice o.price = false → r.crossed = false) →
          ∃ cr', refMatch p mb (n + 1) room ((o :: rest).filter (fun x => x.id != id)) b q cr =
            .ok { r with opp := r.opp.filter (fun x => x.id != id), crossed := cr' } ∧
              (cr' = r.crossed ∨ r.base = 0) := by
        intro hr hcase hcr
        rw [hr]
        simp only
        rw [List.filter_cons_of_neg (by simp [ho])]
        rcases hcase with ha | rfl
        · refine ⟨r.crossed, ?_, .inl rfl⟩
          rw [hcr ha]
          cases hf : rest.filter (fun x => x.id != id) with
          | nil => simp only [refMatch]
          | cons y ys =>
            have hy : p.side.accepts p.limitPrice y.price = false := by
              have hmem : y ∈ rest.filter (fun x => x.id != id) := by rw [hf]; simp
              have := hm.1 y (List.mem_filter.1 hmem).1
              rw [ha] at this
              simpa using this
            simp only [refMatch, hy, Bool.not_false, Bool.or_true, if_true]
        · obtain ⟨cr', h'⟩ := refMatch_none (p := p) (mb := mb) (n + 1) room (rest.filter (fun x => x.id != id)) q cr
          exact ⟨cr', h', .inr rfl⟩
      simp only [refMatch] at h
      split_ifs at h with c1 c2 c3 c4 c5 c6 c7 c8
      · cases h
        exact stopped rfl (hhd o rfl ho) (fun h => h)
      · cases h
        refine stopped rfl (hhd o rfl ho) (fun h => ?_)
        rw [h] at c1
        simp at c1
      all_goals
        obtain ⟨r0, _, rfl⟩ := lift h
        exact absurd ho (hev _ (List.mem_append_left _ (List.mem_cons_self ..)))
    · rw [List.filter_cons_of_pos (by simp [ho])]
      simp only [refMatch] at h ⊢
      split_ifs at h ⊢ with c1 c2 c3 c4 c5 c6 c7 c8
      · cases h
        rw [List.filter_cons_of_pos (by simp [ho])]
        exact ⟨_, rfl, .inl rfl⟩
      · cases h
        rw [List.filter_cons_of_pos (by simp [ho])]
        exact ⟨_, rfl, .inl rfl⟩
      · obtain ⟨r0, hx, rfl⟩ := lift h
        obtain ⟨cr', g, g'⟩ := ih _ _ _ _ _ r0 hx hm.2 (fun e he => hev e (List.mem_append_right _ he)) hhd
        rw [g]
        exact ⟨cr', rfl, g'⟩
      · obtain ⟨r0, hx, rfl⟩ := lift h
        obtain ⟨cr', g, g'⟩ := ih _ _ _ _ _ r0 hx hm.2 (fun e he => hev e (List.mem_append_right _ he)) hhd
        rw [g]
        exact ⟨cr', rfl, g'⟩
      · obtain ⟨r0, hx, rfl⟩ := lift h
        have hm' : ({ o with qty := o.qty - min (min o.qty b) (affordable q o.price) } :: rest).Pairwise
            (fun u v => p.side.accepts p.limitPrice v.price = true → p.side.accepts p.limitPrice u.price = true) :=
          List.pairwise_cons.2 ⟨hm.1, hm.2⟩
        obtain ⟨cr', g, g'⟩ := ih _ _ _ _ _ r0 hx hm' (fun e he => hev e (List.mem_append_right _ he)) hhd
        rw [List.filter_cons_of_pos (by simp [ho])] at g
        rw [g]
        exact ⟨cr', rfl, g'⟩

omit [CallbackInfo C] in
/-- Inserting and taking off another order commute. -/
theorem insertOrder_without {side : Side} {o : Order C} {id : Nat} {l : List (Order C)} (ho : o.id ≠ id)
    (hm : l.Pairwise (fun u v => side.asGood v.price o.price = true → side.asGood u.price o.price = true)) :
    (insertOrder side o l).filter (fun x => x.id != id) = insertOrder side o (l.filter (fun x => x.id != id)) := by
  unfold insertOrder
  have key : (l.filter (fun x => x.id != id)).takeWhile (fun x => side.asGood x.price o.price) =
        (l.takeWhile (fun x => side.asGood x.price o.price)).filter (fun x => x.id != id) ∧
      (l.filter (fun x => x.id != id)).dropWhile (fun x => side.asGood x.price o.price) =
        (l.dropWhile (fun x => side.asGood x.price o.price)).filter (fun x => x.id != id) := by
    have hd : ∀ v ∈ l.dropWhile (fun x => side.asGood x.price o.price), side.asGood v.price o.price = false := by
      clear ho
      induction l with
      | nil => simp
      | cons u l ih =>
        rw [List.pairwise_cons] at hm
        by_cases hu : side.asGood u.price o.price = true
        · rw [List.dropWhile_cons_of_pos (by simpa using hu)]
          exact ih hm.2
        · rw [List.dropWhile_cons_of_neg (by simpa using hu)]
          intro v hv
          rcases List.mem_cons.1 hv with rfl | hv
          · simpa using hu
          · have := hm.1 v hv
            by_contra hc
            exact hu (this (by simpa using hc))
    have ht : ∀ v ∈ l.takeWhile (fun x => side.asGood x.price o.price), side.asGood v.price o.price = true := by
      intro v hv
      exact List.mem_takeWhile_imp (p := fun (x : Order C) => side.asGood x.price o.price) hv
    have e : l.filter (fun x => x.id != id) =
        (l.takeWhile (fun x => side.asGood x.price o.price)).filter (fun x => x.id != id) ++
        (l.dropWhile (fun x => side.asGood x.price o.price)).filter (fun x => x.id != id) := by
      rw [← List.filter_append, List.takeWhile_append_dropWhile]
    rw [e]
    exact takeWhile_append_of (fun v hv => ht v (List.mem_filter.1 hv).1) (fun v hv => hd v (List.mem_filter.1 hv).1)
  rw [key.1, key.2, List.filter_append, List.filter_cons_of_pos (by simp [ho])]

omit [CallbackInfo C] in
/-- Sides are sorted by price. -/
theorem RefInv.accepts_mono {a : RefMarket C} (h : RefInv a) (side : Side) (lp : Nat) :
    (a.orders side.opposite).Pairwise (fun u v => side.accepts lp v.price = true → side.accepts lp u.price = true) := by
  have hok := h.ok side.opposite
  refine List.Pairwise.imp_of_mem ?_ (h.sorted side.opposite)
  intro u v hu hv hb
  obtain ⟨nu, _, eu⟩ := (hok u hu).id
  obtain ⟨nv, _, ev⟩ := (hok v hv).id
  have hs := h.seq
  rw [before_iff (by omega) (by omega) eu ev] at hb
  cases side <;> simp only [Side.opposite, Side.accepts, decide_eq_true_eq] at * <;> omega

omit [CallbackInfo C] in
theorem RefInv.asGood_mono {a : RefMarket C} (h : RefInv a) (side : Side) (lp : Nat) :
    (a.orders side).Pairwise (fun u v => side.asGood v.price lp = true → side.asGood u.price lp = true) := by
  have hok := h.ok side
  refine List.Pairwise.imp_of_mem ?_ (h.sorted side)
  intro u v hu hv hb
  obtain ⟨nu, _, eu⟩ := (hok u hu).id
  obtain ⟨nv, _, ev⟩ := (hok v hv).id
  have hs := h.seq
  rw [before_iff (by omega) (by omega) eu ev] at hb
  cases side <;> simp only [Side.asGood, decide_eq_true_eq] at * <;> omega

omit [CallbackInfo C] in
theorem filter_without_self {l : List (Order C)} {id : Nat} (h : ∀ o ∈ l, o.id ≠ id) :
    l.filter (fun x => x.id != id) = l := by
  rw [List.filter_eq_self]
  intro o ho
  simpa using h o ho

/-- `newOrder` and taking off an order it does not touch. -/
theorem newOrder_without {a a' : RefMarket C} {p : NewOrderParams C} {s : OrderSummary} {id : Nat} (hinv : RefInv a)
    (h : a.newOrder p = .ok (s, a'))
    (hev : ∀ e ∈ a'.events.drop a.events.length, e.id ≠ id)
    (hhd : ∀ o, (a'.orders p.side.opposite).head? = some o → o.id = id →
      p.side.accepts p.limitPrice o.price = false ∨ s.totalBaseQty = p.maxBaseQty ∧ s.postedOrderId = none)
    (hmin : 0 < a.minBase) (hfresh : s.postedOrderId ≠ some id)
    (hroom : (∀ o ∈ a.orders p.side, o.id ≠ id) ∨ (a.orders p.side).length < a.cap p.side ∨ p.postAllowed = false) :
    (a.without id).newOrder p = .ok (s, a'.without id) := by
  obtain ⟨n, r, hn, hc⟩ := newOrder_cases h
  have hopp : ∀ (l : List (Order C)), ((a.without id).setOrders p.side.opposite l).orders p.side =
      (a.orders p.side).filter (fun x => x.id != id) := by
    intro l; cases p.side <;> rfl
  have hw : ∀ (x : RefMarket C) ev, ({ x with events := ev } : RefMarket C).orders p.side = x.orders p.side := by
    intro _ _; cases p.side <;> rfl
  have hrev : ∀ e ∈ r.events, e.id ≠ id := by
    intro e he
    apply hev e
    rcases hc with hc | hc | ⟨kept, ev, hc⟩ <;> rw [hc.events] <;> simp [he]
  obtain ⟨cr', hm, hcr⟩ := refMatch_without (id := id) _ _ _ _ _ _ r hn.run (hinv.accepts_mono p.side p.limitPrice) hrev
    (by
      intro o ho hid
      rw [← hn.opp] at ho
      rcases hhd o ho hid with h | ⟨h, h'⟩
      · exact .inl h
      · right
        obtain ⟨hb, _⟩ := refMatch_le hn.run
        rcases hc with hc | hc | ⟨kept, ev, hc⟩
        · rw [hc.sum] at h; simp only at h; omega
        · rw [hc.sum] at h; simp only at h; omega
        · rw [hc.sum] at h'; cases h')
  obtain ⟨t1, t2, t3⟩ := hn.tick
  have htick : (a.without id).tick = a.tick := rfl
  have hsame : ∀ {b : RefMarket C}, b.minBase = a.minBase → b.tick = a.tick → b.capEvents = a.capEvents →
      (∀ side, b.cap side = a.cap side) → b.seq = a'.seq → b.events = a'.events →
      b.orders p.side.opposite = (a'.orders p.side.opposite).filter (fun x => x.id != id) →
      b.orders p.side = (a'.orders p.side).filter (fun x => x.id != id) → b = a'.without id := by
    intro b b1 b2 b3 b4 b5 b6 b7 b8
    obtain ⟨q1, q2, q3, q4⟩ := hn.params
    refine RefMarket.ext_orders ⟨?_, ?_, ?_, ?_⟩ b5 b6 ?_
    · exact q1.trans b1.symm
    · exact q2.trans b2.symm
    · exact q3.trans b3.symm
    · intro side; rw [cap_without, q4, b4]
    · intro side
      rw [orders_without]
      have : side = p.side.opposite ∨ side = p.side := by cases side <;> cases p.side <;> simp [Side.opposite]
      rcases this with rfl | rfl
      · exact b7
      · exact b8
  have tick' : ¬ (p.limitPrice % a.tick ≠ 0 ∨ (p.postAllowed = true ∧ p.limitPrice < a.tick)) := by
    rintro (h | ⟨h, h'⟩)
    · exact h t2
    · have := t3 h; omega
  rw [newOrder_eq, htick, if_neg (by omega), if_neg tick', orders_without]
  rw [show (a.without id).capEvents - (a.without id).events.length = a.capEvents - a.events.length from rfl,
    show (a.without id).minBase = a.minBase from rfl]
  rw [hm]
  simp only
  unfold RefMarket.finish
  simp only [show (a.without id).seq = a.seq from rfl, show (a.without id).minBase = a.minBase from rfl,
    show (a.without id).capEvents = a.capEvents from rfl, show (a.without id).events = a.events from rfl]
  have so1 : ∀ (b : RefMarket C) l, (b.setOrders p.side.opposite l).orders p.side.opposite = l := by
    intro b l; cases p.side <;> rfl
  have so2 : ∀ (b : RefMarket C) l, (b.setOrders p.side l).orders p.side = l := by
    intro b l; cases p.side <;> rfl
  have so3 : ∀ (b : RefMarket C) l, (b.setOrders p.side l).orders p.side.opposite = b.orders p.side.opposite := by
    intro b l; cases p.side <;> rfl
  have sp : ∀ (b : RefMarket C) l side, (b.setOrders side l).minBase = b.minBase ∧ (b.setOrders side l).tick = b.tick ∧
      (b.setOrders side l).capEvents = b.capEvents ∧ (∀ sd, (b.setOrders side l).cap sd = b.cap sd) ∧
      (b.setOrders side l).seq = b.seq ∧ (b.setOrders side l).events = b.events := by
    intro b l side
    cases side <;> exact ⟨rfl, rfl, rfl, fun sd => by cases sd <;> rfl, rfl, rfl⟩
  have we : ∀ (x : RefMarket C) ev sd, ({ x with events := ev } : RefMarket C).orders sd = x.orders sd := by
    intro _ _ sd; cases sd <;> rfl
  have ws : ∀ (x : RefMarket C) k sd, ({ x with seq := k } : RefMarket C).orders sd = x.orders sd := by
    intro _ _ sd; cases sd <;> rfl
  have wes : ∀ (x : RefMarket C) ev k sd, ({ x with events := ev, seq := k } : RefMarket C).orders sd = x.orders sd := by
    intro _ _ _ sd; cases sd <;> rfl
  have ce : ∀ (x : RefMarket C) ev sd, ({ x with events := ev } : RefMarket C).cap sd = x.cap sd := by
    intro _ _ sd; cases sd <;> rfl
  have ces : ∀ (x : RefMarket C) ev k sd, ({ x with events := ev, seq := k } : RefMarket C).cap sd = x.cap sd := by
    intro _ _ _ sd; cases sd <;> rfl
  have zero : r.base = 0 → min (affordable r.quote p.limitPrice) r.base < a.minBase := by omega
  have nocond : TriedPost a p r → ¬ (cr' || !p.postAllowed ||
      decide (min (affordable r.quote p.limitPrice) r.base < a.minBase)) = true := by
    intro ht
    have : ¬ (min (affordable r.quote p.limitPrice) r.base < a.minBase) := by have := ht.min; omega
    have hcr' : cr' = r.crossed := by
      rcases hcr with h | h
      · exact h
      · exact absurd (zero h) this
    rw [hcr', ht.crossed, ht.allowed, decide_eq_false this]
    decide
  rcases hc with hc | hc | ⟨kept, ev, hc⟩
  · rw [if_pos, hc.sum]
    · congr 2
      apply hsame
      · exact (sp _ _ _).1
      · exact (sp _ _ _).2.1
      · exact (sp _ _ _).2.2.1
      · intro side; rw [ce, (sp _ _ _).2.2.2.1, cap_without]
      · rw [hc.seq]; exact (sp _ _ _).2.2.2.2.1
      · rw [hc.events]
      · rw [we, so1, hn.opp]
      · rw [we, hopp, hc.own]
    · show (cr' || !p.postAllowed || decide (_ < a.minBase)) = true
      rcases hcr with rfl | h0
      · rcases hc.why with h | h | h <;> simp [h]
      · rw [decide_eq_true (zero h0)]; simp
  · have hids : ∀ o ∈ a.orders p.side, o.id ≠ id := by
      rcases hroom with h | h | h
      · exact h
      · have := hc.full; omega
      · rw [hc.tried.allowed] at h; cases h
    have hpost : ∀ room, refPost p.side (a.cap p.side) room (a.orders p.side)
        ⟨mkOrderId p.side p.limitPrice a.seq, min (affordable r.quote p.limitPrice) r.base, p.callbackInfo⟩ =
        .ok ⟨false, a.orders p.side, []⟩ := by
      intro room
      unfold refPost
      rw [if_neg (by have := hc.full; omega)]
      cases hl : (a.orders p.side).getLast? with
      | none => rfl
      | some w =>
        have hg := hc.good w hl
        simp only [Order.price, mkOrderId_price hinv.seq] at hg ⊢
        rw [if_pos hg]
    rw [if_neg (nocond hc.tried), if_neg (by have := hc.tried.seq; omega), we, hopp,
      filter_without_self hids, cap_without, hpost, hc.sum]
    simp only
    rw [if_neg (by decide)]
    congr 2
    apply hsame
    · exact (sp _ _ _).1
    · exact (sp _ _ _).2.1
    · exact (sp _ _ _).2.2.1
    · intro side; rw [ces, (sp _ _ _).2.2.2.1, cap_without]
    · rw [hc.seq]
    · rw [hc.events]
    · rw [wes, so1, hn.opp]
    · rw [wes, hopp, hc.own]
  · rw [hc.sum] at hfresh
    have hfr : mkOrderId p.side p.limitPrice a.seq ≠ id := fun e => hfresh (by rw [e])
    have hpost : refPost p.side (a.cap p.side) (a.capEvents - (a.events ++ r.events).length)
        ((a.orders p.side).filter (fun x => x.id != id))
        ⟨mkOrderId p.side p.limitPrice a.seq, min (affordable r.quote p.limitPrice) r.base, p.callbackInfo⟩ =
        .ok ⟨true, (a'.orders p.side).filter (fun x => x.id != id), evictEvents p.side ev⟩ := by
      rw [hc.own]
      rcases hc.evict with ⟨rfl, rfl, hlt⟩ | ⟨w, rfl, hk, hfull, hbad, hrm⟩
      · unfold refPost
        rw [if_pos (Nat.lt_of_le_of_lt (List.length_filter_le _ _) hlt)]
        congr 2
        refine (insertOrder_without hfr ?_).symm
        exact hinv.asGood_mono p.side _
      · have hids : ∀ o ∈ a.orders p.side, o.id ≠ id := by
          rcases hroom with h | h | h
          · exact h
          · omega
          · rw [hc.tried.allowed] at h; cases h
        rw [filter_without_self hids]
        have hkept : ∀ o ∈ kept, o.id ≠ id := fun o ho => hids o (by rw [hk]; simp [ho])
        unfold refPost
        rw [if_neg (by omega), hk]
        simp only [List.getLast?_append, List.getLast?_singleton, Option.some_or, List.dropLast_concat, Order.price]
        simp only [mkOrderId_price hinv.seq]
        rw [if_neg (by simp only [Order.price] at hbad; rw [hbad]; decide), if_neg (by rw [List.length_append]; omega)]
        congr 2
        symm
        apply filter_without_self
        intro o ho
        rcases mem_insertOrder.1 ho with rfl | ho
        · exact hfr
        · exact hkept o ho
    rw [if_neg (nocond hc.tried), if_neg (by have := hc.tried.seq; omega), we, hopp, cap_without, hpost, hc.sum]
    simp only
    rw [if_pos trivial]
    congr 2
    apply hsame
    · exact (sp _ _ _).1.trans (sp _ _ _).1
    · exact (sp _ _ _).2.1.trans (sp _ _ _).2.1
    · exact (sp _ _ _).2.2.1.trans (sp _ _ _).2.2.1
    · intro side; rw [ce, (sp _ _ _).2.2.2.1, ces, (sp _ _ _).2.2.2.1, cap_without]
    · rw [hc.seq]; exact (sp _ _ _).2.2.2.2.1
    · rw [hc.events]
    · rw [we, so3, wes, so1, hn.opp]
    · rw [we, so2]

/-! ### More room in the queue -/

theorem refMatch_larger {p : NewOrderParams C} {mb : Nat} : ∀ (n r1 r2 : Nat) (opp : List (Order C)) (b q : Nat) (cr : Bool)
    (r : MatchOut C), r1 ≤ r2 → refMatch p mb n r1 opp b q cr = .ok r → refMatch p mb n r2 opp b q cr = .ok r
  | 0, _, _, _, _, _, _, _, _, h => h
  | _ + 1, _, _, [], _, _, _, _, _, h => h
  | n + 1, r1, r2, o :: rest, b, q, cr, r, hr, h => by
    have lift : ∀ {x y : Except AoError (MatchOut C)} {es : List (Event C)} {r : MatchOut C},
        (∀ r, x = .ok r → y = .ok r) → x.map (MatchOut.emit es) = .ok r → y.map (MatchOut.emit es) = .ok r := by
      intro x y es r hxy hx
      cases x with
      | error e => cases hx
      | ok r0 => rw [hxy r0 rfl]; exact hx
    simp only [refMatch] at h ⊢
    split_ifs at h ⊢ <;> first
      | exact h
      | omega
      | exact lift (fun r => refMatch_larger n _ _ _ _ _ _ r (by omega)) h

/-- A queue with more room refuses nothing that one with less room accepts. -/
theorem newOrder_more {a a' : RefMarket C} {p : NewOrderParams C} {s : OrderSummary} {k : Nat} {fs : List (Event C)}
    (h : a.newOrder p = .ok (s, a')) (hr : a.capEvents - a.events.length ≤ k - fs.length) :
    (a.withQueue k fs).newOrder p ≠ .error (.ao .eventQueueFull) := by
  obtain ⟨n, r, hn, hc⟩ := newOrder_cases h
  obtain ⟨t1, t2, t3⟩ := hn.tick
  have tick' : ¬ (p.limitPrice % a.tick ≠ 0 ∨ (p.postAllowed = true ∧ p.limitPrice < a.tick)) := by
    rintro (h | ⟨h, h'⟩)
    · exact h t2
    · have := t3 h; omega
  have hm := refMatch_larger _ _ _ _ _ _ _ _ hr hn.run
  rw [newOrder_eq, show (a.withQueue k fs).tick = a.tick from rfl, if_neg (by omega), if_neg tick',
    show (a.withQueue k fs).capEvents - (a.withQueue k fs).events.length = k - fs.length from rfl,
    show (a.withQueue k fs).minBase = a.minBase from rfl,
    show (a.withQueue k fs).orders p.side.opposite = a.orders p.side.opposite from orders_with a k fs _, hm]
  simp only
  unfold RefMarket.finish
  simp only [show (a.withQueue k fs).seq = a.seq from rfl, show (a.withQueue k fs).minBase = a.minBase from rfl,
    show (a.withQueue k fs).capEvents = k from rfl, show (a.withQueue k fs).events = fs from rfl,
    show (a.withQueue k fs).cap p.side = a.cap p.side from cap_with a k fs _]
  have hown : ∀ (l : List (Order C)) ev, ({ (a.withQueue k fs).setOrders p.side.opposite l with events := ev } :
      RefMarket C).orders p.side = a.orders p.side := by
    intro l ev; cases p.side <;> rfl
  rw [hown]
  split_ifs with c1 c2
  · simp
  · simp
  · have ht : TriedPost a p r → ∃ po, refPost p.side (a.cap p.side) (k - (fs ++ r.events).length) (a.orders p.side)
        ⟨mkOrderId p.side p.limitPrice a.seq, min (affordable r.quote p.limitPrice) r.base, p.callbackInfo⟩ = .ok po := by
      intro ht
      unfold refPost
      by_cases c3 : (a.orders p.side).length < a.cap p.side
      · exact ⟨_, if_pos c3⟩
      rw [if_neg c3]
      cases hl : (a.orders p.side).getLast? with
      | none => exact ⟨_, rfl⟩
      | some w =>
        simp only
        by_cases c4 : p.side.asGood w.price (Order.price (C := C) ⟨mkOrderId p.side p.limitPrice a.seq,
            min (affordable r.quote p.limitPrice) r.base, p.callbackInfo⟩) = true
        · exact ⟨_, if_pos c4⟩
        by_cases c5 : k - (fs ++ r.events).length = 0
        · exfalso
          rcases hc with hc | hc | ⟨kept, ev, hc⟩
          · rcases hc.why with h | h | h
            · rw [ht.crossed] at h; cases h
            · rw [ht.allowed] at h; cases h
            · have := ht.min; omega
          · have := hc.good w hl
            simp only [Order.price] at this c4
            rw [show mkOrderId p.side p.limitPrice a.seq / 2 ^ 64 = p.limitPrice from
              mkOrderId_price (by have := ht.seq; omega)] at c4
            exact c4 this
          · rcases hc.evict with ⟨_, _, h⟩ | ⟨_, _, _, _, _, h⟩
            · exact c3 h
            · rw [List.length_append] at c5; omega
        · rw [if_neg c4, if_neg c5]; exact ⟨_, rfl⟩
    have htr : TriedPost a p r := by
      rcases hc with hc | hc | ⟨kept, ev, hc⟩
      · exfalso
        apply c1
        rcases hc.why with h | h | h <;> simp [h]
      · exact hc.tried
      · exact hc.tried
    obtain ⟨po, hpo⟩ := ht htr
    rw [hpo]
    simp only
    split_ifs <;> simp

/-! ### Limits that do not bind -/

/-- Two reference markets that agree on the minimum order size, the orders and the sequence number. -/
structure SameFlow (a b : RefMarket C) : Prop where
  minBase : a.minBase = b.minBase
  seq : a.seq = b.seq
  orders : ∀ side, a.orders side = b.orders side

theorem newOrder_flow {a b : RefMarket C} (h : SameFlow a b) {p : NewOrderParams C}
    (ha : 0 < a.tick ∧ a.newOrder p ≠ .error (.ao .invalidLimitPrice) ∧ a.newOrder p ≠ .error (.ao .eventQueueFull) ∧
      (a.orders p.side).length < a.cap p.side)
    (hb : 0 < b.tick ∧ b.newOrder p ≠ .error (.ao .invalidLimitPrice) ∧ b.newOrder p ≠ .error (.ao .eventQueueFull) ∧
      (b.orders p.side).length < b.cap p.side) :
    (∃ e, a.newOrder p = .error e ∧ b.newOrder p = .error e) ∨
    ∃ s a' b' es, a.newOrder p = .ok (s, a') ∧ b.newOrder p = .ok (s, b') ∧ SameFlow a' b' ∧
      a'.events = a.events ++ es ∧ b'.events = b.events ++ es := by
  obtain ⟨ta, ia, fa, ra⟩ := ha
  obtain ⟨tb, ib, fb, rb⟩ := hb
  rw [newOrder_eq, if_neg (by omega)] at ia fa
  rw [newOrder_eq, if_neg (by omega)] at ib fb
  rw [newOrder_eq, newOrder_eq b, if_neg (show ¬ a.tick = 0 by omega), if_neg (show ¬ b.tick = 0 by omega)]
  have la : ¬ (p.limitPrice % a.tick ≠ 0 ∨ (p.postAllowed = true ∧ p.limitPrice < a.tick)) := by
    intro hl; rw [if_pos hl] at ia; exact ia rfl
  have lb : ¬ (p.limitPrice % b.tick ≠ 0 ∨ (p.postAllowed = true ∧ p.limitPrice < b.tick)) := by
    intro hl; rw [if_pos hl] at ib; exact ib rfl
  rw [if_neg la] at fa
  rw [if_neg lb, ← h.minBase, ← h.orders] at fb
  rw [if_neg la, if_neg lb, ← h.minBase, ← h.orders]
  have hm := refMatch_room (p := p) (mb := a.minBase) p.matchLimit (a.capEvents - a.events.length)
    (b.capEvents - b.events.length) (a.orders p.side.opposite) p.maxBaseQty p.maxQuoteQty true
    (by intro h; rw [h] at fa; exact fa rfl) (by intro h; rw [h] at fb; exact fb rfl)
  rw [← hm]
  cases refMatch p a.minBase p.matchLimit (a.capEvents - a.events.length) (a.orders p.side.opposite)
    p.maxBaseQty p.maxQuoteQty true with
  | error e => exact .inl ⟨_, rfl, rfl⟩
  | ok r =>
    simp only
    unfold RefMarket.finish
    simp only
    rw [← h.minBase, ← h.seq]
    have own : ∀ (x : RefMarket C) l ev, ({ x.setOrders p.side.opposite l with events := ev } :
        RefMarket C).orders p.side = x.orders p.side := by
      intro x l ev; cases p.side <;> rfl
    rw [own, own]
    by_cases c1 : (r.crossed || !p.postAllowed || decide (min (affordable r.quote p.limitPrice) r.base < a.minBase)) = true
    · rw [if_pos c1, if_pos c1]
      refine .inr ⟨_, _, _, r.events, rfl, rfl, ⟨?_, ?_, ?_⟩, rfl, rfl⟩
      · have := h.minBase; cases p.side <;> exact this
      · have := h.seq; cases p.side <;> exact this
      · intro side
        have h1 := h.orders .bid
        have h2 := h.orders .ask
        cases p.side <;> cases side <;> first | rfl | exact h1 | exact h2
    rw [if_neg c1, if_neg c1]
    by_cases c2 : a.seq + 1 ≥ 2 ^ 64
    · rw [if_pos c2, if_pos c2]
      exact .inl ⟨_, rfl, rfl⟩
    rw [if_neg c2, if_neg c2]
    unfold refPost
    rw [if_pos ra, if_pos rb]
    simp only [if_true]
    refine .inr ⟨_, _, _, r.events, rfl, rfl, ⟨?_, ?_, ?_⟩, by simp, by simp⟩
    · have := h.minBase; cases p.side <;> exact this
    · cases p.side <;> rfl
    · intro side
      have h1 := h.orders .bid
      have h2 := h.orders .ask
      simp only [RefMarket.orders] at h1 h2
      cases p.side <;> cases side <;>
        simp only [RefMarket.setOrders, RefMarket.orders, Side.opposite, h1, h2]

theorem cancel1_flow {a b : RefMarket C} (h : SameFlow a b) (id : Nat) :
    (a.cancel1 id = none ∧ b.cancel1 id = none) ∨
    ∃ o a' b', a.cancel1 id = some (o, a') ∧ b.cancel1 id = some (o, b') ∧ SameFlow a' b' := by
  unfold RefMarket.cancel1
  rw [← h.orders]
  cases (a.orders (sideOfId id)).find? (fun o => o.id == id) with
  | none => exact .inl ⟨rfl, rfl⟩
  | some o =>
    refine .inr ⟨o, _, _, rfl, rfl, ?_, ?_, ?_⟩
    · have := h.minBase; cases sideOfId id <;> exact this
    · have := h.seq; cases sideOfId id <;> exact this
    · intro side
      have h1 := h.orders .bid
      have h2 := h.orders .ask
      cases sideOfId id <;> cases side <;> first | rfl | exact h1 | exact h2

theorem massCancel_flow : ∀ (ids : List Nat) (x y : Nat) {a b : RefMarket C}, SameFlow a b →
    (∃ e, RefMarket.massCancelFrom ids x y a = .error e ∧ RefMarket.massCancelFrom ids x y b = .error e) ∨
    ∃ x' y' a' b', RefMarket.massCancelFrom ids x y a = .ok (x', y', a') ∧
      RefMarket.massCancelFrom ids x y b = .ok (x', y', b') ∧ SameFlow a' b'
  | [], x, y, a, b, h => .inr ⟨x, y, a, b, rfl, rfl, h⟩
  | id :: ids, x, y, a, b, h => by
    simp only [RefMarket.massCancelFrom]
    rcases cancel1_flow h id with ⟨e1, e2⟩ | ⟨o, a', b', e1, e2, h'⟩
    · rw [e1, e2]; exact .inl ⟨_, rfl, rfl⟩
    · rw [e1, e2]
      simp only
      by_cases hb : x + o.qty < 2 ^ 64 ∧ worth .ask o.qty o.price + y < 2 ^ 64
      · rw [if_pos hb, if_pos hb]; exact massCancel_flow ids _ _ h'
      · rw [if_neg hb, if_neg hb]; exact .inl ⟨_, rfl, rfl⟩

theorem exec_flow {a b : RefMarket C} (h : SameFlow a b) {i : Instr C} (hi : i.isCrank = false)
    (ha : ∀ p, i = .newOrder p → 0 < a.tick ∧ a.newOrder p ≠ .error (.ao .invalidLimitPrice) ∧
      a.newOrder p ≠ .error (.ao .eventQueueFull) ∧ (a.orders p.side).length < a.cap p.side)
    (hb : ∀ p, i = .newOrder p → 0 < b.tick ∧ b.newOrder p ≠ .error (.ao .invalidLimitPrice) ∧
      b.newOrder p ≠ .error (.ao .eventQueueFull) ∧ (b.orders p.side).length < b.cap p.side) :
    (∃ e, a.exec i = .error e ∧ b.exec i = .error e) ∨
    ∃ s a' b' es, a.exec i = .ok (s, a') ∧ b.exec i = .ok (s, b') ∧ SameFlow a' b' ∧
      a'.events = a.events ++ es ∧ b'.events = b.events ++ es := by
  cases i with
  | newOrder p =>
    simp only [RefMarket.exec]
    rcases newOrder_flow h (ha p rfl) (hb p rfl) with ⟨e, g1, g2⟩ | ⟨s, a', b', es, g1, g2, g3, g4, g5⟩
    · exact .inl ⟨e, by rw [g1]; rfl, by rw [g2]; rfl⟩
    · exact .inr ⟨some s, a', b', es, by rw [g1]; rfl, by rw [g2]; rfl, g3, g4, g5⟩
  | cancelOrder id =>
    simp only [RefMarket.exec, RefMarket.cancelOrder]
    rcases cancel1_flow h id with ⟨e1, e2⟩ | ⟨o, a', b', e1, e2, h'⟩
    · rw [e1, e2]; exact .inl ⟨_, rfl, rfl⟩
    · rw [e1, e2]
      exact .inr ⟨_, a', b', [], rfl, rfl, h', by rw [List.append_nil]; exact (cancel1_params e1).2.2,
        by rw [List.append_nil]; exact (cancel1_params e2).2.2⟩
  | massCancelOrders ids =>
    simp only [RefMarket.exec, RefMarket.massCancelOrders]
    rcases massCancel_flow ids 0 0 h with ⟨e, e1, e2⟩ | ⟨x, y, a', b', e1, e2, h'⟩
    · rw [e1, e2]; exact .inl ⟨_, rfl, rfl⟩
    · rw [e1, e2]
      exact .inr ⟨_, a', b', [], rfl, rfl, h', by rw [List.append_nil]; exact (massCancelFrom_params e1).2.2,
        by rw [List.append_nil]; exact (massCancelFrom_params e2).2.2⟩
  | consumeEvents n => cases hi

end AOB
