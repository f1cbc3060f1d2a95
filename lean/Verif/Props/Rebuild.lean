import Verif.Spec.Rebuild
import Verif.Props.History
/-
C84: the book can be rebuilt from what is made public.
-/
namespace AOB
variable {C : Type}

theorem survivor_cons (e : Event C) (es : List (Event C)) (x : Order C) :
    survivor (e :: es) x = ((hearEvent [x] e).head?).bind (survivor es) := by
  cases e with
  | fill sd id b q mc tc =>
    simp only [hearEvent, List.map_cons, List.map_nil, List.head?_cons, Option.bind_some]
    by_cases h : x.id = id
    · subst h
      simp only [survivor, outsOf_fill, fillsOf_fill, if_true, sumBase_cons, Event.base, Nat.sub_sub]
    · rw [if_neg h]
      simp [survivor, outsOf_fill, fillsOf_fill, Ne.symm h, h]
  | out sd id b c =>
    by_cases h : x.id = id
    · subst h
      simp [hearEvent, survivor, outsOf_out]
    · simp [hearEvent, h, survivor, outsOf_out, fillsOf_out, Ne.symm h]

theorem hearEvent_eq (book : List (Order C)) (e : Event C) :
    hearEvent book e = book.filterMap (fun x => (hearEvent [x] e).head?) := by
  cases e with
  | fill sd id b q mc tc => simp [hearEvent, List.filterMap_eq_map']
  | out sd id b c =>
    simp only [hearEvent, ne_eq, decide_not]
    rw [← List.filterMap_eq_filter]
    apply List.filterMap_congr
    intro x _
    by_cases h : x.id = id <;> simp [h]

/-- Hearing all events leaves of each order what survives. -/
theorem foldl_hear (es : List (Event C)) : ∀ book : List (Order C),
    es.foldl hearEvent book = book.filterMap (survivor es) := by
  induction es with
  | nil =>
    intro book
    have : survivor ([] : List (Event C)) = some := by funext x; simp [survivor]
    rw [this, List.filterMap_some]; rfl
  | cons e es ih =>
    intro book
    rw [List.foldl_cons, ih, hearEvent_eq, List.filterMap_filterMap]
    apply List.filterMap_congr
    intro x _
    exact (survivor_cons e es x).symm

variable [CallbackInfo C] {m m' : Market C} {p : NewOrderParams C} {s : OrderSummary} {c : Config} {is : List (Instr C)}

/-- All orders after a new order. -/
theorem all_new (h : ReachBy c is m) (hp : (Instr.newOrder p).Ok) (he : m.newOrder p = .ok (s, m')) :
    (allResting m').Perm ((allResting m).filterMap (survivor (emitted m m')) ++ postedBy p s) := by
  have hr := h.reachable
  have h1 := C48_opposite_side hr hp he
  have h2 : (resting m' p.side).Perm
      ((resting m p.side).filterMap (survivor (emitted m m')) ++ postedBy p s) := by
    have h2 := C48_own_side hr hp he
    unfold postedBy
    cases hs : s.postedOrderId with
    | none =>
      rw [hs] at h2
      simp only at h2 ⊢
      rw [h2, List.append_nil]
      have : (resting m p.side).filterMap (survivor (emitted m m')) = (resting m p.side).filterMap some := by
        apply List.filterMap_congr
        intro x hx
        apply survivor_unnamed
        obtain ⟨a, a', n, r, ex, v⟩ := hr.view hp he
        rw [v.rest] at hx
        have hex : ex = [] := by
          rcases v.post with ⟨_, h⟩ | ⟨_, h⟩ | ⟨kept, ev, hc, _⟩
          · exact h
          · exact h
          · rw [hc.sum] at hs; cases hs
        rw [v.em, hex, List.append_nil]
        exact v.ev_ne hx
      rw [this, List.filterMap_some]
    | some id =>
      rw [hs] at h2
      obtain ⟨L, R, e1, e2⟩ := h2
      rw [e1, e2, List.append_assoc]
      exact List.Perm.append_left L (List.perm_append_singleton _ R).symm
  unfold allResting
  cases hside : p.side with
  | bid =>
    rw [hside] at h1 h2
    rw [List.filterMap_append, List.append_assoc, show resting m' .ask = _ from h1]
    refine (h2.append_right _).trans ?_
    rw [List.append_assoc]
    exact List.Perm.append_left _ List.perm_append_comm
  | ask =>
    rw [hside] at h1 h2
    rw [List.filterMap_append, List.append_assoc, show resting m' .bid = _ from h1]
    exact List.Perm.append_left _ h2

/-- One instruction: the reader's copy stays in step. -/
theorem hear_step (h : ReachBy c is m) (hlen : is.length < 2 ^ 63) {i : Instr C} (hi : i.Ok) {ans : Option OrderSummary}
    (he : m.exec i = .ok (ans, m')) {book : List (Order C)} (hb : book.Perm (allResting m)) :
    (hear book ⟨i, ans, emitted m m'⟩).Perm (allResting m') := by
  have hnone : ∀ {ids : List Nat}, (∀ side, resting m' side = (resting m side).filter (fun x => decide (x.id ∉ ids))) →
      pending m' = pending m → emitted m m' = [] ∧ (book.filter (fun o => decide (o.id ∉ ids))).Perm (allResting m') := by
    intro ids h1 h2
    refine ⟨by unfold emitted; rw [h2]; simp, ?_⟩
    unfold allResting at hb ⊢
    rw [h1, h1, ← List.filter_append]
    exact hb.filter _
  cases i with
  | newOrder p =>
    simp only [Market.exec] at he
    cases hn : m.newOrder p with
    | error e => rw [hn] at he; cases he
    | ok x =>
      obtain ⟨s, m1⟩ := x
      rw [hn] at he
      obtain ⟨rfl, rfl⟩ : some s = ans ∧ m1 = m' := by
        have := Except.ok.inj he
        exact ⟨(Prod.mk.inj this).1, (Prod.mk.inj this).2⟩
      have e1 := all_new h hi hn
      have : hear book ⟨.newOrder p, some s, emitted m m1⟩ =
          book.filterMap (survivor (emitted m m1)) ++ postedBy p s := by
        unfold hear postedBy
        simp only [foldl_hear]
        cases s.postedOrderId <;> simp
      rw [this]
      exact ((hb.filterMap _).append_right _).trans e1.symm
  | cancelOrder id =>
    simp only [Market.exec] at he
    cases hn : m.cancelOrder id with
    | error e => rw [hn] at he; cases he
    | ok x =>
      have hs : m.step (.cancelOrder id) = m' := by simp only [Market.step, Market.exec, he]
      have hex : ∃ o ∈ allResting m, o.id = id := by
        by_contra hno
        have hno' : ∀ side, ∀ o ∈ resting m side, o.id ≠ id :=
          fun side o ho hid => hno ⟨o, mem_allResting.2 ⟨side, ho⟩, hid⟩
        rcases C22_cancel_missing h.reachable hno' with h' | ⟨h', _⟩ <;> rw [h'] at hn <;> cases hn
      obtain ⟨o, ho, rfl⟩ := hex
      obtain ⟨_, h1, h2⟩ := h.cancel_step (by omega) (mem_allResting.1 ho)
      rw [hs] at h1 h2
      obtain ⟨e1, e2⟩ := hnone (ids := [o.id]) (fun side => by
          rw [h1 side]; apply List.filter_congr
          intro y _
          by_cases hy : y.id = o.id <;> simp [hy]) h2
      rw [e1]
      refine List.Perm.trans (List.Perm.of_eq ?_) e2
      simp only [hear, List.foldl_nil]
      apply List.filter_congr
      intro y _
      by_cases hy : y.id = o.id <;> simp [hy]
  | massCancelOrders ids =>
    simp only [Market.exec] at he
    cases hn : m.massCancelOrders ids with
    | error e => rw [hn] at he; cases he
    | ok x =>
      obtain ⟨s, m1⟩ := x
      rw [hn] at he
      cases he
      obtain ⟨os, hos⟩ := C24_only_if h (by omega) hn
      obtain ⟨m2, e1, e2, e3⟩ := C24_mass_cancel h (by omega) hos
      rw [hn] at e1
      cases e1
      obtain ⟨f1, f2⟩ := hnone e2 e3
      rw [f1]
      exact f2
  | consumeEvents n =>
    obtain ⟨m1, e1, e2, e3, e4⟩ := C26_consume h.reachable n
    simp only [Market.exec, e1] at he
    cases he
    have : emitted m m' = [] := by
      unfold emitted
      rw [e2, List.drop_eq_nil_iff, List.length_drop]
      omega
    rw [this]
    simp only [hear, List.foldl_nil]
    unfold allResting at hb ⊢
    rw [e3, e3]
    exact hb

/-- C84: a reader whose copy agrees with the book at some moment and who hears all notices from then on has the book,
up to the order of the list. -/
theorem C84_follow (js : List (Instr C)) : ∀ {is : List (Instr C)} {m : Market C}, ReachBy c is m →
    is.length + js.length ≤ 2 ^ 63 → (∀ j ∈ js, j.Ok) → ∀ {book : List (Order C)}, book.Perm (allResting m) →
    ((noticesOf m js).foldl hear book).Perm (allResting (m.run js)) := by
  induction js with
  | nil => intro is m _ _ _ book hb; exact hb
  | cons j js ih =>
    intro is m h hlen hok book hb
    rw [List.length_cons] at hlen
    have hrun : m.run (j :: js) = (m.step j).run js := rfl
    have hs := h.step (hok j (by simp))
    cases he : m.exec j with
    | error e =>
      have h1 : m.step j = m := by simp only [Market.step, he]
      rw [hrun]
      rw [h1] at hs ⊢
      have := ih hs (by rw [List.length_append, List.length_singleton]; omega) (fun x hx => hok x (by simp [hx])) hb
      simpa only [noticesOf, he] using this
    | ok x =>
      obtain ⟨ans, m1⟩ := x
      have h1 : m.step j = m1 := by simp only [Market.step, he]
      rw [hrun]
      rw [h1] at hs ⊢
      have := ih hs (by rw [List.length_append, List.length_singleton]; omega) (fun x hx => hok x (by simp [hx]))
        (hear_step h (by omega) (hok j (by simp)) he hb)
      simpa only [noticesOf, he, List.foldl_cons] using this

/-- C84: from nothing, the notices of the whole history give all resting orders. -/
theorem C84_rebuild (hv : c.Valid) (hok : ∀ i ∈ is, i.Ok) (hlen : is.length ≤ 2 ^ 63) (c0 : C) :
    ((noticesOf (c.market c0) is).foldl hear []).Perm (allResting ((c.market c0).run is)) := by
  have h0 : ReachBy c [] (c.market c0) := ⟨hv, by simp, c0, rfl⟩
  refine C84_follow is h0 (by simpa using hlen) hok ?_
  have : allResting (c.market c0) = [] := by
    obtain ⟨hk, _⟩ := h0.known
    unfold allResting
    rw [hk.rep.resting, hk.rep.resting]
    rfl
  rw [this]

/-- C84: sorted by id, the reader's copy is the two sides of the book, best order first. -/
theorem C84_rebuild_sides (hv : c.Valid) (hok : ∀ i ∈ is, i.Ok) (hlen : is.length ≤ 2 ^ 63) (c0 : C) (side : Side) :
    readerSide ((noticesOf (c.market c0) is).foldl hear []) side = resting ((c.market c0).run is) side := by
  have hperm := C84_rebuild hv hok hlen c0
  have h : ReachBy c is ((c.market c0).run is) := ⟨hv, hok, c0, rfl⟩
  generalize (noticesOf (c.market c0) is).foldl hear [] = book at hperm
  generalize (c.market c0).run is = m at hperm h
  have hside : ∀ sd, ∀ o ∈ resting m sd, sideOfId o.id = sd := by
    intro sd o ho
    rw [← sideOfId_eq]
    exact C11_resting_side h hlen ho
  have hf : (allResting m).filter (fun o => decide (sideOfId o.id = side)) = resting m side := by
    unfold allResting
    rw [List.filter_append]
    cases side
    · rw [List.filter_eq_self.2 (fun o ho => by simp [hside _ o ho]),
        List.filter_eq_nil_iff.2 (fun o ho => by simp [hside _ o ho]), List.append_nil]
    · rw [List.filter_eq_nil_iff.2 (fun o ho => by simp [hside _ o ho]),
        List.filter_eq_self.2 (fun o ho => by simp [hside _ o ho]), List.nil_append]
  have h1 : (readerSide book side).Perm (resting m side) := by
    rw [← hf]
    exact (List.mergeSort_perm _ _).trans (hperm.filter _)
  have hs1 : (readerSide book side).Pairwise (fun a b => side.ranks a b = true) := by
    apply List.pairwise_mergeSort
    · intro a b c; cases side <;> simp only [Side.ranks, decide_eq_true_eq] <;> omega
    · intro a b; cases side <;> simp only [Side.ranks, Bool.or_eq_true, decide_eq_true_eq] <;> omega
  obtain ⟨hk, _⟩ := h.known
  have hs2 : (resting m side).Pairwise (fun a b => side.ranks a b = true) := by
    rw [hk.rep.resting]
    refine (hk.inv.sorted side).imp ?_
    intro x y hxy
    cases side <;> simp only [Side.before, Side.ranks, decide_eq_true_eq] at * <;> omega
  refine List.Perm.eq_of_pairwise ?_ hs1 hs2 h1
  intro a b ha hb hab hba
  have hid : a.id = b.id := by
    cases side <;> simp only [Side.ranks, decide_eq_true_eq] at hab hba <;> omega
  have e1 := ofId_some h.all_nodup (mem_allResting.2 ⟨side, h1.mem_iff.1 ha⟩)
  have e2 := ofId_some h.all_nodup (mem_allResting.2 ⟨side, hb⟩)
  rw [hid, e2] at e1
  simpa using e1.symm

/-! ### Concrete cases -/

/-- A history with trades, an eviction, a cancellation, a refused order and cranking. -/
def demoPublic : List (Instr DemoCb) :=
  demoHist ++ [.newOrder demoTake, .consumeEvents 2, .cancelOrder (9 * 2 ^ 96 + (2 ^ 64 - 1 - 3)), .cancelOrder 77,
    .newOrder (demoOrder .ask 5 9 7)]

example := C84_rebuild (c := demoCfg) (is := demoPublic) demo_valid (by decide +kernel) (by decide +kernel) ⟨0, 0⟩
example (side : Side) :=
  C84_rebuild_sides (c := demoCfg) (is := demoPublic) demo_valid (by decide +kernel) (by decide +kernel) ⟨0, 0⟩ side
example := C84_follow [Instr.newOrder demoTake, .cancelOrder 77] demo_reachBy (by decide +kernel) (by decide +kernel)
  (book := allResting demo) (List.Perm.refl _)

/-- The reader's copy at the end of it, in the order in which the orders were posted. -/
example : (((noticesOf (demoCfg.market ⟨0, 0⟩) demoPublic).foldl hear []).map
      (fun o => (o.qty, o.price / 2 ^ 32, o.cb.user))) = [(2, 9, 6)] ∧
    (noticesOf (demoCfg.market ⟨0, 0⟩) demoPublic).length = 10 := by
  decide +kernel

end AOB
