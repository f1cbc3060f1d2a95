import Verif.Proofs.Steps
/-
The invariant holds in every reachable market.
-/
namespace AOB
variable {C : Type}

/-- Prices along a side in rank order. -/
theorem before_price {side : Side} {a b : Order C} (h : side.before a b) :
    side.asGood a.price b.price = true := by
  cases side <;> exact decide_eq_true (Nat.div_le_div_right (Nat.le_of_lt h))

theorem accepts_mono {side : Side} {l a b : Nat} (h : side.opposite.asGood a b = true)
    (hb : side.accepts l b = true) : side.accepts l a = true := by
  cases side <;> simp only [Side.opposite, Side.asGood, Side.accepts, decide_eq_true_iff] at * <;> omega

theorem OrdOk.mono {side : Side} {n n' minBase tick : Nat} {o : Order C} (h : OrdOk side n minBase tick o)
    (hn : n ≤ n') : OrdOk side n' minBase tick o := by
  obtain ⟨⟨k, hk, hid⟩, h2, h3, h4, h5, h6, h7⟩ := h
  exact ⟨⟨k, by omega, hid⟩, h2, h3, h4, h5, h6, h7⟩

theorem worth_mono {side : Side} {t t' p : Nat} (h : t ≤ t') : worth side t p ≤ worth side t' p := by
  have := Nat.mul_le_mul_right p h
  cases side <;> simp only [worth] <;> omega

theorem OrdOk.reduce {side : Side} {n minBase tick : Nat} {o : Order C} (h : OrdOk side n minBase tick o)
    {k : Nat} (hk : minBase ≤ o.qty - k) : OrdOk side n minBase tick { o with qty := o.qty - k } := by
  obtain ⟨h1, h2, h3, h4, h5, h6, h7⟩ := h
  exact ⟨h1, h2, h3, h4, hk, by simp only; omega,
    lt_of_le_of_lt (worth_mono (Nat.sub_le _ _)) h7⟩

variable [CallbackInfo C]

omit [CallbackInfo C] in
/-- After matching that stopped because prices no longer cross, no remaining order is acceptable. -/
theorem stop_not_accept {p : NewOrderParams C} {left opp b q} (h : StopAt p left opp b q false)
    (hs : opp.Pairwise p.side.opposite.before) : ∀ o ∈ opp, p.side.accepts p.limitPrice o.price = false := by
  rcases h with ⟨_, h⟩ | ⟨_, h⟩
  · cases h
  · cases opp with
    | nil => simp
    | cons x rest =>
      simp only at h
      rw [List.pairwise_cons] at hs
      intro o ho
      rcases List.mem_cons.1 ho with rfl | ho
      · exact h.1.symm
      · by_contra hne
        rw [Bool.not_eq_false] at hne
        have := accepts_mono (before_price (hs.1 o ho)) hne
        rw [← h.1] at this
        cases this

theorem newOrder_inv {a : RefMarket C} (ha : RefInv a) {p : NewOrderParams C} (hp : (Instr.newOrder p).Ok)
    {s : OrderSummary} {a' : RefMarket C} (h : a.newOrder p = .ok (s, a')) : RefInv a' := by
  obtain ⟨n, r, hn, hcase⟩ := newOrder_cases h
  obtain ⟨hp1, hp2, hp3⟩ := hp
  have hle := hn.steps.le
  have hoppok : ∀ o ∈ r.opp, OrdOk p.side.opposite a.seq a.minBase a.tick o :=
    hn.steps.forall (fun o k ho hk => ho.reduce hk) (ha.ok _)
  have hoppsort := hn.steps.sorted (ha.sorted p.side.opposite)
  have hopplen := hn.steps.length
  have hunc : ∀ b ∈ a.orders .bid, ∀ s ∈ a.orders .ask, b.price < s.price := ha.uncrossed
  -- prices of the remaining opposite orders are old prices
  have hprice : ∀ o ∈ r.opp, ∃ o' ∈ a.orders p.side.opposite, o'.price = o.price := by
    refine hn.steps.forall (P := fun o => ∃ o' ∈ a.orders p.side.opposite, o'.price = o.price)
      (fun o k ho _ => ho) (fun o ho => ⟨o, ho, rfl⟩)
  have build : a.seq ≤ a'.seq → a'.seq < 2 ^ 64 → a'.events.length ≤ a.capEvents →
      (a'.orders p.side).Pairwise p.side.before → (a'.orders p.side).length ≤ a.cap p.side →
      (∀ o ∈ a'.orders p.side, OrdOk p.side a'.seq a.minBase a.tick o) →
      (∀ o ∈ a'.orders p.side, ∀ x ∈ r.opp,
        match p.side with | .bid => o.price < x.price | .ask => x.price < o.price) → RefInv a' := by
    intro h1 h2 h3 h4 h5 h6 h7
    refine ⟨?_, ?_, ?_, ?_, ?_, h2⟩
    · rw [hn.params.1, hn.params.2.1]
      refine side_cases (P := fun side => ∀ o ∈ a'.orders side, OrdOk side a'.seq a.minBase a.tick o) p.side h6 ?_
      rw [hn.opp]
      exact fun o ho => (hoppok o ho).mono h1
    · refine side_cases (P := fun side => (a'.orders side).Pairwise side.before) p.side h4 ?_
      rw [hn.opp]; exact hoppsort
    · show ∀ b ∈ a'.orders .bid, ∀ s ∈ a'.orders .ask, b.price < s.price
      have hopp := hn.opp
      cases hside : p.side <;> rw [hside] at h7 hopp <;> simp only [Side.opposite] at hopp h7
      · intro b hb x hx
        rw [hopp] at hx
        exact h7 b hb x hx
      · intro b hb x hx
        rw [hopp] at hb
        exact h7 x hx b hb
    · intro side
      rw [hn.params.2.2.2]
      refine side_cases (P := fun side => (a'.orders side).length ≤ a.cap side) p.side h5 ?_ side
      rw [hn.opp]
      exact le_trans hopplen (ha.len _)
    · rw [hn.params.2.2.1]; exact h3
  -- old own orders against the remaining opposite orders
  have hold : ∀ o ∈ a.orders p.side, ∀ x ∈ r.opp,
      match p.side with | .bid => o.price < x.price | .ask => x.price < o.price := by
    intro o ho x hx
    obtain ⟨x', hx', hpx⟩ := hprice x hx
    cases hside : p.side <;> rw [hside] at ho hx' <;> simp only [Side.opposite] at hx' ⊢
    · have := hunc o ho x' hx'; omega
    · have := hunc x' hx' o ho; omega
  have hevlen := ha.evs
  have hrl := hn.room
  rcases hcase with hc | hc | ⟨kept, ev, hc⟩
  · apply build
    · rw [hc.seq]
    · rw [hc.seq]; exact ha.seq
    · rw [hc.events, List.length_append]; omega
    · rw [hc.own]; exact ha.sorted _
    · rw [hc.own]; exact ha.len _
    · rw [hc.own, hc.seq]; exact ha.ok _
    · rw [hc.own]; exact hold
  · apply build
    · rw [hc.seq]; omega
    · rw [hc.seq]; exact hc.tried.seq
    · rw [hc.events, List.length_append]; omega
    · rw [hc.own]; exact ha.sorted _
    · rw [hc.own]; exact ha.len _
    · rw [hc.own, hc.seq]; exact fun o ho => (ha.ok _ o ho).mono (by omega)
    · rw [hc.own]; exact hold
  · obtain ⟨hcr, hpa, hmin, hseq⟩ := hc.tried
    have hlp := hn.tick.2.2 hpa
    have hkept : ∀ o ∈ kept, o ∈ a.orders p.side := by
      rcases hc.evict with ⟨_, h, _⟩ | ⟨w, _, h, _⟩
      · rw [h]; exact fun o ho => ho
      · rw [h]; exact fun o ho => List.mem_append_left _ ho
    have hkeptsort : kept.Pairwise p.side.before := by
      have := ha.sorted p.side
      rcases hc.evict with ⟨_, h, _⟩ | ⟨w, _, h, _⟩
      · rw [h]; exact this
      · rw [h, List.pairwise_append] at this; exact this.1
    have hidp : (⟨mkOrderId p.side p.limitPrice a.seq, min (affordable r.quote p.limitPrice) r.base,
      p.callbackInfo⟩ : Order C).price = p.limitPrice := mkOrderId_price (by omega)
    apply build
    · rw [hc.seq]; omega
    · rw [hc.seq]; exact hseq
    · rw [hc.events, List.length_append, List.length_append]
      rcases hc.evict with ⟨h, _⟩ | ⟨w, h, _, _, _, h5⟩
      · rw [h]; simp only [evictEvents, List.length_nil]; omega
      · rw [h]; simp only [evictEvents, List.length_singleton]; omega
    · rw [hc.own]
      apply insertOrder_sorted (seq := a.seq) (by omega)
        (fun x hx => (ha.ok _ x (hkept x hx)).id) _ hkeptsort
      rw [hidp]
    · rw [hc.own, length_insertOrder]
      have := ha.len p.side
      rcases hc.evict with ⟨_, h, h'⟩ | ⟨w, _, h, h', _⟩
      · rw [h]; omega
      · rw [h, List.length_append, List.length_singleton] at this; omega
    · rw [hc.own, hc.seq]
      intro o ho
      rcases mem_insertOrder.1 ho with rfl | ho
      · have hpos : 0 < p.limitPrice := lt_of_lt_of_le hn.tick.1 hlp
        refine ⟨⟨a.seq, Nat.lt_succ_self _, by rw [hidp]⟩, by rw [hidp]; exact hp1, by rw [hidp]; exact hpos,
          ?_, hmin, ?_, ?_⟩
        · rw [hidp]; exact Nat.dvd_of_mod_eq_zero hn.tick.2.1
        · exact lt_of_le_of_lt (le_trans (Nat.min_le_right _ _) hle.1) hp2
        · rw [hidp]
          exact lt_of_le_of_lt (le_trans (worth_le_affordable (Nat.min_le_left _ _)) hle.2) hp3
      · exact (ha.ok _ o (hkept o ho)).mono (by omega)
    · rw [hc.own]
      intro o ho x hx
      rcases mem_insertOrder.1 ho with rfl | ho
      · rw [hidp]
        have hst := hn.stop
        rw [hcr] at hst
        have := stop_not_accept hst hoppsort x hx
        cases hside : p.side <;> rw [hside] at this <;>
          simp only [Side.accepts, decide_eq_false_iff_not] at this ⊢ <;> omega
      · exact hold o (hkept o ho) x hx

omit [CallbackInfo C] in
theorem setOrders_inv {a : RefMarket C} (ha : RefInv a) {side : Side} {l : List (Order C)}
    (hl : l.Sublist (a.orders side)) : RefInv (a.setOrders side l) := by
  have hf := a.setOrders_fields side l
  refine ⟨?_, ?_, ?_, ?_, ?_, ?_⟩
  · rw [hf.1, hf.2.1, hf.2.2.2.1]
    refine side_cases (P := fun s => ∀ o ∈ (a.setOrders side l).orders s, OrdOk s a.seq a.minBase a.tick o)
      side ?_ ?_
    · rw [RefMarket.orders_setOrders]
      exact fun o ho => ha.ok _ o (hl.subset ho)
    · rw [RefMarket.orders_opp_setOrders]
      exact ha.ok _
  · refine side_cases (P := fun s => ((a.setOrders side l).orders s).Pairwise s.before) side ?_ ?_
    · rw [RefMarket.orders_setOrders]
      exact (ha.sorted side).sublist hl
    · rw [RefMarket.orders_opp_setOrders]
      exact ha.sorted _
  · cases side
    · exact fun b hb s hs => ha.uncrossed b (hl.subset hb) s hs
    · exact fun b hb s hs => ha.uncrossed b hb s (hl.subset hs)
  · intro s
    rw [hf.2.2.2.2.2]
    refine side_cases (P := fun s => ((a.setOrders side l).orders s).length ≤ a.cap s) side ?_ ?_ s
    · rw [RefMarket.orders_setOrders]
      exact le_trans hl.length_le (ha.len side)
    · rw [RefMarket.orders_opp_setOrders]
      exact ha.len _
  · rw [hf.2.2.1, hf.2.2.2.2.1]; exact ha.evs
  · rw [hf.2.2.2.1]; exact ha.seq

omit [CallbackInfo C] in
theorem cancel1_inv {a : RefMarket C} (ha : RefInv a) {id : Nat} {o a'} (h : a.cancel1 id = some (o, a')) :
    RefInv a' := by
  unfold RefMarket.cancel1 at h
  split at h
  · cases h
  · cases h
    exact setOrders_inv ha List.filter_sublist

omit [CallbackInfo C] in
theorem massCancelFrom_inv {ids : List Nat} : ∀ {b q : Nat} {a : RefMarket C}, RefInv a → ∀ {b' q' a'},
    RefMarket.massCancelFrom ids b q a = .ok (b', q', a') → RefInv a' := by
  induction ids with
  | nil =>
    intro b q a ha b' q' a' h
    cases h; exact ha
  | cons id ids ih =>
    intro b q a ha b' q' a' h
    unfold RefMarket.massCancelFrom at h
    split at h
    · cases h
    · rename_i hc
      split at h
      · exact ih (cancel1_inv ha hc) h
      · cases h

theorem exec_inv {a : RefMarket C} (ha : RefInv a) {i : Instr C} (hi : i.Ok) {s a'}
    (h : a.exec i = .ok (s, a')) : RefInv a' := by
  have emap : ∀ {x : Except Err (OrderSummary × RefMarket C)} {s a'},
      x.map (fun x => (some x.1, x.2)) = .ok (s, a') → ∃ s', x = .ok (s', a') := by
    intro x s a' h
    cases x with
    | error e => cases h
    | ok y => cases h; exact ⟨y.1, rfl⟩
  cases i with
  | newOrder p =>
    obtain ⟨s', h'⟩ := emap h
    exact newOrder_inv ha hi h'
  | cancelOrder id =>
    obtain ⟨s', h'⟩ := emap h
    unfold RefMarket.cancelOrder at h'
    split at h'
    · cases h'
    · rename_i hc
      cases h'
      exact cancel1_inv ha hc
  | massCancelOrders ids =>
    obtain ⟨s', h'⟩ := emap h
    unfold RefMarket.massCancelOrders at h'
    split at h'
    · cases h'
    · rename_i hc
      cases h'
      exact massCancelFrom_inv ha hc
  | consumeEvents n =>
    cases h
    obtain ⟨h1, h2, h3, h4, h5, h6⟩ := ha
    exact ⟨h1, h2, h3, h4, le_trans (by simp) h5, h6⟩

/-- One transaction. -/
theorem step_refines {m : Market C} {a : RefMarket C} (hm : MRep m a) (ha : RefInv a)
    {i : Instr C} (hi : i.Ok) : MRep (m.step i) (a.step i) ∧ RefInv (a.step i) := by
  have h := exec_refines hm ha i hi
  unfold Market.step RefMarket.step
  cases hx : a.exec i with
  | error e =>
    rw [hx] at h
    rcases h with h | ⟨_, h⟩ <;> rw [h] <;> exact ⟨hm, ha⟩
  | ok x =>
    obtain ⟨s, a'⟩ := x
    rw [hx] at h
    obtain ⟨m', h1, h2⟩ := h
    rw [h1]
    exact ⟨h2, exec_inv ha hi hx⟩

theorem run_refines {is : List (Instr C)} : ∀ {m : Market C} {a : RefMarket C}, MRep m a → RefInv a →
    (∀ i ∈ is, i.Ok) → MRep (m.run is) (a.run is) ∧ RefInv (a.run is) := by
  induction is with
  | nil => intro m a hm ha _; exact ⟨hm, ha⟩
  | cons i is ih =>
    intro m a hm ha hi
    obtain ⟨h1, h2⟩ := step_refines hm ha (hi i (by simp))
    exact ih h1 h2 (fun j hj => hi j (List.mem_cons_of_mem _ hj))

/-- The reference market of a configuration. -/
def Config.ref (c : Config) : RefMarket C :=
  RefMarket.create c.minBase c.tick c.capBids c.capAsks c.capEvents

omit [CallbackInfo C] in
theorem create_refines {c : Config} (hc : c.Valid) (c0 : C) :
    MRep (c.market c0) (c.ref : RefMarket C) ∧ RefInv (c.ref : RefMarket C) := by
  obtain ⟨h1, h2, h3, h4, h5⟩ := hc
  constructor
  · refine ⟨rfl, rfl, ?_, ?_, ?_, ?_, rfl⟩
    · intro side
      cases side
      · exact srep_zeroed _ c0 (by omega) _
      · exact srep_zeroed _ c0 (by omega) _
    · intro side
      cases side
      · simp [Config.market, Market.create, OrderBook.getTree, Slab.zeroed, Config.ref, RefMarket.create,
          RefMarket.cap]; omega
      · simp [Config.market, Market.create, OrderBook.getTree, Slab.zeroed, Config.ref, RefMarket.create,
          RefMarket.cap]; omega
    · exact qrep_zeroed _ c0 h5.1 h5.2
    · simp [Config.market, Market.create, EventQueue.zeroed, Config.ref, RefMarket.create]
  · refine ⟨?_, ?_, ?_, ?_, ?_, ?_⟩
    · intro side o ho; cases side <;> cases ho
    · intro side; cases side <;> exact List.Pairwise.nil
    · intro b hb; cases hb
    · intro side; cases side <;> simp [Config.ref, RefMarket.create, RefMarket.orders]
    · simp [Config.ref, RefMarket.create]
    · simp [Config.ref, RefMarket.create]

/-! ### Facts that are constant over a history -/

/-- Parameters never change. -/
structure SameParams (a a' : RefMarket C) : Prop where
  minBase : a'.minBase = a.minBase
  tick : a'.tick = a.tick
  capEvents : a'.capEvents = a.capEvents
  cap : ∀ side, a'.cap side = a.cap side

omit [CallbackInfo C] in
theorem SameParams.refl (a : RefMarket C) : SameParams a a := ⟨rfl, rfl, rfl, fun _ => rfl⟩

omit [CallbackInfo C] in
theorem SameParams.trans {a b c : RefMarket C} (h : SameParams a b) (h' : SameParams b c) :
    SameParams a c :=
  ⟨h'.minBase.trans h.minBase, h'.tick.trans h.tick, h'.capEvents.trans h.capEvents,
    fun s => (h'.cap s).trans (h.cap s)⟩

omit [CallbackInfo C] in
theorem cancel1_params {a : RefMarket C} {id : Nat} {o a'} (h : a.cancel1 id = some (o, a')) :
    SameParams a a' ∧ a'.seq = a.seq ∧ a'.events = a.events := by
  unfold RefMarket.cancel1 at h
  split at h
  · cases h
  · cases h
    have hf := a.setOrders_fields (sideOfId id)
      ((a.orders (sideOfId id)).filter (fun o => o.id != id))
    exact ⟨⟨hf.1, hf.2.1, hf.2.2.1, hf.2.2.2.2.2⟩, hf.2.2.2.1, hf.2.2.2.2.1⟩

omit [CallbackInfo C] in
theorem massCancelFrom_params {ids : List Nat} : ∀ {b q : Nat} {a : RefMarket C} {b' q' a'},
    RefMarket.massCancelFrom ids b q a = .ok (b', q', a') →
    SameParams a a' ∧ a'.seq = a.seq ∧ a'.events = a.events := by
  induction ids with
  | nil =>
    intro b q a b' q' a' h
    cases h; exact ⟨SameParams.refl _, rfl, rfl⟩
  | cons id ids ih =>
    intro b q a b' q' a' h
    unfold RefMarket.massCancelFrom at h
    split at h
    · cases h
    · rename_i hc
      split at h
      · obtain ⟨h1, h2, h3⟩ := cancel1_params hc
        obtain ⟨g1, g2, g3⟩ := ih h
        exact ⟨h1.trans g1, g2.trans h2, g3.trans h3⟩
      · cases h

theorem exec_params {a : RefMarket C} {i : Instr C} {s a'} (h : a.exec i = .ok (s, a')) :
    SameParams a a' ∧ a.seq ≤ a'.seq ∧ a'.seq ≤ a.seq + 1 := by
  have emap : ∀ {x : Except Err (OrderSummary × RefMarket C)} {s a'},
      x.map (fun x => (some x.1, x.2)) = .ok (s, a') → ∃ s', x = .ok (s', a') := by
    intro x s a' h
    cases x with
    | error e => cases h
    | ok y => cases h; exact ⟨y.1, rfl⟩
  cases i with
  | newOrder p =>
    obtain ⟨s', h'⟩ := emap h
    obtain ⟨n, r, hn, hcase⟩ := newOrder_cases h'
    refine ⟨⟨hn.params.1, hn.params.2.1, hn.params.2.2.1, hn.params.2.2.2⟩, ?_⟩
    rcases hcase with hc | hc | ⟨kept, ev, hc⟩ <;> rw [hc.seq] <;> omega
  | cancelOrder id =>
    obtain ⟨s', h'⟩ := emap h
    unfold RefMarket.cancelOrder at h'
    split at h'
    · cases h'
    · rename_i hc
      cases h'
      obtain ⟨h1, h2, _⟩ := cancel1_params hc
      exact ⟨h1, by omega, by omega⟩
  | massCancelOrders ids =>
    obtain ⟨s', h'⟩ := emap h
    unfold RefMarket.massCancelOrders at h'
    split at h'
    · cases h'
    · rename_i hc
      cases h'
      obtain ⟨h1, h2, _⟩ := massCancelFrom_params hc
      exact ⟨h1, by omega, by omega⟩
  | consumeEvents n =>
    cases h
    exact ⟨⟨rfl, rfl, rfl, fun s => by cases s <;> rfl⟩, by simp, by simp⟩

theorem step_params (a : RefMarket C) (i : Instr C) :
    SameParams a (a.step i) ∧ a.seq ≤ (a.step i).seq ∧ (a.step i).seq ≤ a.seq + 1 := by
  unfold RefMarket.step
  cases h : a.exec i with
  | error e => exact ⟨SameParams.refl _, le_refl _, Nat.le_succ _⟩
  | ok x => obtain ⟨s, a'⟩ := x; exact exec_params h

theorem run_params (is : List (Instr C)) : ∀ (a : RefMarket C),
    SameParams a (a.run is) ∧ a.seq ≤ (a.run is).seq ∧ (a.run is).seq ≤ a.seq + is.length := by
  induction is with
  | nil => intro a; exact ⟨SameParams.refl _, le_refl _, le_refl _⟩
  | cons i is ih =>
    intro a
    obtain ⟨h1, h2, h3⟩ := step_params a i
    obtain ⟨g1, g2, g3⟩ := ih (a.step i)
    have : a.run (i :: is) = (a.step i).run is := rfl
    rw [this]
    refine ⟨h1.trans g1, by omega, ?_⟩
    simp only [List.length_cons]; omega

/-- Everything known about a reachable market. -/
structure Known (m : Market C) (a : RefMarket C) : Prop where
  rep : MRep m a
  inv : RefInv a
  minBase : 0 < a.minBase
  tick : 0 < a.tick

theorem ReachBy.known {c : Config} {is : List (Instr C)} {m : Market C} (h : ReachBy c is m) :
    Known m ((c.ref : RefMarket C).run is) ∧ ((c.ref : RefMarket C).run is).seq ≤ is.length ∧
      SameParams (c.ref : RefMarket C) ((c.ref : RefMarket C).run is) := by
  obtain ⟨hv, hi, c0, rfl⟩ := h
  obtain ⟨h1, h2⟩ := create_refines hv c0
  obtain ⟨h3, h4⟩ := run_refines h1 h2 hi
  obtain ⟨h5, _, h6⟩ := run_params is (c.ref : RefMarket C)
  refine ⟨⟨h3, h4, ?_, ?_⟩, by simpa [Config.ref, RefMarket.create] using h6, h5⟩
  · rw [h5.minBase]; exact hv.minBase
  · rw [h5.tick]; exact hv.tick

theorem Reachable.known {m : Market C} (h : Reachable m) : ∃ a, Known m a := by
  obtain ⟨c, is, h⟩ := h
  exact ⟨_, h.known.1⟩

/-- Reachability is closed under transactions. -/
theorem ReachBy.step {c : Config} {is : List (Instr C)} {m : Market C} (h : ReachBy c is m)
    {i : Instr C} (hi : i.Ok) : ReachBy c (is ++ [i]) (m.step i) := by
  obtain ⟨hv, his, c0, rfl⟩ := h
  refine ⟨hv, ?_, c0, ?_⟩
  · intro j hj
    rcases List.mem_append.1 hj with hj | hj
    · exact his j hj
    · rw [List.mem_singleton] at hj; rw [hj]; exact hi
  · simp [Market.run]

theorem Reachable.step {m : Market C} (h : Reachable m) {i : Instr C} (hi : i.Ok) : Reachable (m.step i) := by
  obtain ⟨c, is, h⟩ := h
  exact ⟨c, is ++ [i], h.step hi⟩

/-! ### Observations -/

omit [CallbackInfo C] in
theorem MRep.orders {m : Market C} {a : RefMarket C} (h : MRep m a) (side : Side) :
    m.orders side = .ok (prio side (a.orders side)) := (h.tree side).orders

omit [CallbackInfo C] in
theorem MRep.resting {m : Market C} {a : RefMarket C} (h : MRep m a) (side : Side) :
    resting m side = a.orders side := by
  unfold AOB.resting
  rw [h.orders side]
  cases side <;> simp [prio]

omit [CallbackInfo C] in
theorem MRep.pending {m : Market C} {a : RefMarket C} (h : MRep m a) : pending m = a.events := by
  unfold AOB.pending Market.events
  rw [h.queue.contents]

/-- A successful instruction on a known market. -/
theorem Known.exec_ok {m : Market C} {a : RefMarket C} (h : Known m a) {i : Instr C} (hi : i.Ok) {s m'}
    (he : m.exec i = .ok (s, m')) : ∃ a', a.exec i = .ok (s, a') ∧ Known m' a' := by
  have hr := exec_refines h.rep h.inv i hi
  cases hx : a.exec i with
  | error e =>
    rw [hx] at hr
    rcases hr with hr | ⟨_, hr⟩ <;> rw [hr] at he <;> cases he
  | ok x =>
    obtain ⟨s1, a'⟩ := x
    rw [hx] at hr
    obtain ⟨m1, h1, h2⟩ := hr
    rw [h1] at he
    cases he
    have hp := (exec_params hx).1
    exact ⟨a', rfl, h2, exec_inv h.inv hi hx, by rw [hp.minBase]; exact h.minBase,
      by rw [hp.tick]; exact h.tick⟩

theorem Known.newOrder_ok {m : Market C} {a : RefMarket C} (h : Known m a) {p : NewOrderParams C}
    (hp : (Instr.newOrder p).Ok) {s m'} (he : m.newOrder p = .ok (s, m')) :
    ∃ a', a.newOrder p = .ok (s, a') ∧ Known m' a' := by
  have hr := newOrder_refines h.rep h.inv p hp
  cases hx : a.newOrder p with
  | error e =>
    rw [hx] at hr
    simp only at hr
    rw [hr] at he; cases he
  | ok x =>
    obtain ⟨s1, a'⟩ := x
    rw [hx] at hr
    obtain ⟨m1, h1, h2⟩ := hr
    rw [h1] at he
    cases he
    have hx' : a.exec (.newOrder p) = .ok (some s, a') := by
      unfold RefMarket.exec; simp only; rw [hx]; rfl
    have hpp := (exec_params hx').1
    exact ⟨a', rfl, h2, exec_inv h.inv hp hx', by rw [hpp.minBase]; exact h.minBase,
      by rw [hpp.tick]; exact h.tick⟩

/-- The events emitted by a new order, at the reference level. -/
theorem newOrder_events {a : RefMarket C} {p : NewOrderParams C} {s a'} (h : a.newOrder p = .ok (s, a')) :
    ∃ es, a'.events = a.events ++ es := by
  obtain ⟨n, r, hn, hcase⟩ := newOrder_cases h
  rcases hcase with hc | hc | ⟨kept, ev, hc⟩
  · exact ⟨_, hc.events⟩
  · exact ⟨_, hc.events⟩
  · exact ⟨_, by rw [hc.events, List.append_assoc]⟩

end AOB
