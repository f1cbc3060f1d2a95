import Verif.Spec.History
import Verif.Props.Cancel
import Verif.Props.Queue
import Verif.Proofs.Stale
/-
Properties of whole histories: conservation (C07), callback infos (C09), unique ids (C10, C11), time
priority (C35), no event lost (C49).
-/
namespace AOB
variable {C : Type} [CallbackInfo C] {m m' : Market C} {p : NewOrderParams C} {s : OrderSummary}

/-! ### Lemmas on lists -/

section lists
omit [CallbackInfo C]

@[simp] theorem ofId_nil (id : Nat) : ofId id ([] : List (Order C)) = [] := rfl
@[simp] theorem sumQty_nil : sumQty ([] : List (Order C)) = 0 := rfl
theorem ofId_append (id : Nat) (a b : List (Order C)) : ofId id (a ++ b) = ofId id a ++ ofId id b := by
  simp [ofId]
theorem sumQty_append (a b : List (Order C)) : sumQty (a ++ b) = sumQty a + sumQty b := by simp [sumQty]
theorem sumQty_cons (a : Order C) (b : List (Order C)) : sumQty (a :: b) = a.qty + sumQty b := by simp [sumQty]

theorem ofId_none {id : Nat} {l : List (Order C)} (h : ∀ o ∈ l, o.id ≠ id) : ofId id l = [] := by
  unfold ofId
  rw [List.filter_eq_nil_iff]
  intro o ho; simpa using h o ho

theorem ofId_some {l : List (Order C)} (h : (l.map Order.id).Nodup) {x : Order C} (hx : x ∈ l) :
    ofId x.id l = [x] := by
  induction l with
  | nil => simp at hx
  | cons y l ih =>
    rw [List.map_cons, List.nodup_cons] at h
    unfold ofId
    rcases List.mem_cons.1 hx with rfl | hx
    · rw [List.filter_cons_of_pos (by simp)]
      have : ofId x.id l = [] := ofId_none (fun o ho he => h.1 (by rw [← he]; exact List.mem_map_of_mem ho))
      unfold ofId at this
      rw [this]
    · rw [List.filter_cons_of_neg]
      · exact ih h.2 hx
      · intro he
        have he : y.id = x.id := by simpa using he
        exact h.1 (by rw [he]; exact List.mem_map_of_mem hx)

theorem ofId_filter {l : List (Order C)} (f : Order C → Bool) (id : Nat) (b : Bool)
    (h : ∀ o : Order C, o.id = id → f o = b) : ofId id (l.filter f) = if b then ofId id l else [] := by
  unfold ofId
  rw [List.filter_filter]
  cases b
  · simp only [Bool.false_eq_true, if_false]
    rw [List.filter_eq_nil_iff]
    intro o _ ho
    simp only [Bool.and_eq_true, beq_iff_eq] at ho
    rw [h o ho.1] at ho
    exact absurd ho.2 (by simp)
  · simp only [if_true]
    apply List.filter_congr
    intro o _
    by_cases ho : o.id = id
    · simp [h o ho]
    · have : (o.id == id) = false := by simpa using ho
      rw [this, Bool.false_and]

/-- In a list strictly ordered by `R`, an element that is `R`-before another one comes earlier. -/
theorem sublist_of_rel {α : Type} {R : α → α → Prop} (hirr : ∀ a, ¬ R a a) (hasym : ∀ a b, R a b → ¬ R b a) :
    ∀ {l : List α}, l.Pairwise R → ∀ {x y : α}, x ∈ l → y ∈ l → R x y → [x, y].Sublist l := by
  intro l
  induction l with
  | nil => intro _ x y hx; simp at hx
  | cons a l ih =>
    intro hp x y hx hy hr
    rw [List.pairwise_cons] at hp
    rcases List.mem_cons.1 hx with rfl | hx'
    · rcases List.mem_cons.1 hy with rfl | hy'
      · exact absurd hr (hirr _)
      · exact List.Sublist.cons_cons _ (List.singleton_sublist.2 hy')
    · rcases List.mem_cons.1 hy with rfl | hy'
      · exact absurd hr (hasym _ _ (hp.1 x hx'))
      · exact (ih hp.2 hx' hy' hr).cons _

theorem sublist_pair_append {α : Type} {x y : α} {a b : List α} (h : [x, y].Sublist (a ++ b)) :
    [x, y].Sublist a ∨ (x ∈ a ∧ y ∈ b) ∨ [x, y].Sublist b := by
  rw [List.sublist_append_iff] at h
  obtain ⟨l1, l2, he, h1, h2⟩ := h
  match l1, he with
  | [], he => rw [List.nil_append] at he; subst he; exact .inr (.inr h2)
  | [u], he =>
    rw [List.singleton_append, List.cons.injEq] at he
    obtain ⟨rfl, rfl⟩ := he
    exact .inr (.inl ⟨List.singleton_sublist.1 h1, List.singleton_sublist.1 h2⟩)
  | [u, v], he =>
    simp only [List.cons_append, List.nil_append, List.cons.injEq] at he
    obtain ⟨rfl, rfl, rfl⟩ := he
    exact .inl h1
  | u :: v :: w :: l, he => simp at he
end lists

/-! ### Ids -/

theorem seqOfId_mk {side : Side} {p n : Nat} (hn : n < 2 ^ 63) : seqOfId (mkOrderId side p n) = n := by
  unfold seqOfId
  cases side
  · have : mkOrderId .bid p n % 2 ^ 64 = 2 ^ 64 - 1 - n := by simp only [mkOrderId]; omega
    rw [this, if_neg (by omega)]; omega
  · have : mkOrderId .ask p n % 2 ^ 64 = n := by simp only [mkOrderId]; omega
    rw [this, if_pos (by omega)]

theorem mkOrderId_side {side : Side} {p n : Nat} (hn : n < 2 ^ 63) : sideOfId (mkOrderId side p n) = side := by
  unfold sideOfId
  cases side
  · have : mkOrderId .bid p n % 2 ^ 64 = 2 ^ 64 - 1 - n := by simp only [mkOrderId]; omega
    rw [this, if_neg (by omega)]
  · have : mkOrderId .ask p n % 2 ^ 64 = n := by simp only [mkOrderId]; omega
    rw [this, if_pos (by omega)]

omit [CallbackInfo C] in
theorem Known_all {a : RefMarket C} (h : MRep m a) : allResting m = a.all := by
  unfold allResting RefMarket.all
  rw [h.resting, h.resting]; rfl

omit [CallbackInfo C] in
theorem RefInv.all_nodup {a : RefMarket C} (h : RefInv a) : (a.all.map Order.id).Nodup := by
  unfold RefMarket.all
  rw [List.map_append, List.nodup_append]
  refine ⟨h.nodup .bid, h.nodup .ask, ?_⟩
  intro i hi j hj
  obtain ⟨x, hx, rfl⟩ := List.mem_map.1 hi
  obtain ⟨y, hy, rfl⟩ := List.mem_map.1 hj
  exact h.ids_ne (side := .bid) hx hy

theorem ReachBy.all_nodup {c is} (h : ReachBy c is m) : ((allResting m).map Order.id).Nodup := by
  obtain ⟨hk, _⟩ := h.known
  rw [Known_all hk.rep]; exact hk.inv.all_nodup

omit [CallbackInfo C] in
theorem mem_allResting {o : Order C} : o ∈ allResting m ↔ ∃ side, o ∈ resting m side := by
  unfold allResting
  rw [List.mem_append]
  constructor
  · rintro (h | h)
    · exact ⟨.bid, h⟩
    · exact ⟨.ask, h⟩
  · rintro ⟨side, h⟩
    cases side
    · exact .inl h
    · exact .inr h

omit [CallbackInfo C] in
/-- The number of the next order. -/
theorem Known.seqNum {a : RefMarket C} (h : Known m a) : m.queue.header.seqNum = a.seq := h.rep.seq

/-- The id of a posted order is made of its side, its limit price and the sequence number, which is then used up. -/
theorem posted_id {c is} (h : ReachBy c is m) (hp : (Instr.newOrder p).Ok) (he : m.newOrder p = .ok (s, m'))
    {id : Nat} (hid : s.postedOrderId = some id) :
    id = mkOrderId p.side p.limitPrice m.queue.header.seqNum ∧
      m'.queue.header.seqNum = m.queue.header.seqNum + 1 ∧ m.queue.header.seqNum ≤ is.length := by
  obtain ⟨a, a', n, r, ex, v, _, _, _, _, hseq⟩ := h.view hp he
  rw [v.known.seqNum, v.known'.seqNum]
  rcases v.post with ⟨hc, _⟩ | ⟨hc, _⟩ | ⟨kept, ev, hc, _⟩
  · rw [hc.sum] at hid; cases hid
  · rw [hc.sum] at hid; cases hid
  · rw [hc.sum] at hid; cases hid
    exact ⟨rfl, hc.seq, hseq⟩

/-- A posted id is not resting. -/
theorem posted_fresh {c is} (h : ReachBy c is m) (hlen : is.length < 2 ^ 63) (hp : (Instr.newOrder p).Ok)
    (he : m.newOrder p = .ok (s, m')) {id : Nat} (hid : s.postedOrderId = some id) :
    ∀ o ∈ allResting m, o.id ≠ id := by
  obtain ⟨h1, _, h3⟩ := posted_id h hp he hid
  obtain ⟨hk, hseq, _⟩ := h.known
  intro o ho heq
  obtain ⟨side, ho⟩ := mem_allResting.1 ho
  rw [hk.rep.resting] at ho
  obtain ⟨n, hn, hoid⟩ := (hk.inv.ok side o ho).id
  rw [hk.seqNum] at h1 h3
  have e1 : seqOfId o.id = n := by rw [hoid]; exact seqOfId_mk (by omega)
  rw [heq, h1, seqOfId_mk (by omega)] at e1
  omega

/-! ### One new order -/

/-- The account of one id over one new order. -/
theorem new_account {c is} (h : ReachBy c is m) (hlen : is.length < 2 ^ 63) (hp : (Instr.newOrder p).Ok)
    (he : m.newOrder p = .ok (s, m')) (id : Nat) :
    sumQty (ofId id (allResting m)) + sumQty (ofId id (stepLog m (.newOrder p)).posted) =
        sumBase (fillsOf id (emitted m m')) + sumBase (outsOf id (emitted m m')) + sumQty (ofId id (allResting m')) ∧
      (ofId id (allResting m)).length + (ofId id (stepLog m (.newOrder p)).posted).length =
        (outsOf id (emitted m m')).length + (ofId id (allResting m')).length := by
  have hr := h.reachable
  have hm' : ReachBy c (is ++ [.newOrder p]) m' := by
    have := h.step hp
    have hs : m.step (.newOrder p) = m' := by simp only [Market.step, Market.exec, he, ok_bind]
    rwa [hs] at this
  have hfresh : ∀ i, s.postedOrderId = some i → ∀ o ∈ allResting m, o.id ≠ i :=
    fun i hi => posted_fresh h hlen hp he hi
  have hlog : (stepLog m (.newOrder p)).posted = postedBy p s := by simp only [stepLog, he]
  rw [hlog]
  clear hlog
  by_cases hx : ∃ x ∈ allResting m, x.id = id
  · obtain ⟨x, hx, rfl⟩ := hx
    rw [ofId_some h.all_nodup hx]
    obtain ⟨side, hxs⟩ := mem_allResting.1 hx
    have hpost : ofId x.id (postedBy p s) = [] := by
      apply ofId_none
      intro o ho
      unfold postedBy at ho
      cases hi : s.postedOrderId with
      | none => rw [hi] at ho; simp at ho
      | some i =>
        rw [hi] at ho
        simp only [List.mem_singleton] at ho
        subst ho
        exact fun h => hfresh i hi x hx h.symm
    rw [hpost]
    obtain ⟨h1, h2, h3⟩ := C08_departures hr hp he side hxs
    have huniq : ∀ sd, ∀ o ∈ resting m' sd, o.id = x.id → sd = side ∧
        o.qty = x.qty - sumBase (fillsOf x.id (emitted m m')) := by
      intro sd o ho hid
      rcases C48_nothing_appears hr hp he sd ho with ⟨x', hx', hid', _, hq⟩ | ⟨_, hpo, _, _⟩
      · have hxx : x' ∈ allResting m := mem_allResting.2 ⟨sd, hx'⟩
        have e1 := ofId_some h.all_nodup hxx
        have e2 := ofId_some h.all_nodup hx
        rw [show x'.id = x.id from hid'.trans hid, e2] at e1
        have e3 : x = x' := by simpa using e1
        subst e3
        refine ⟨?_, hq⟩
        obtain ⟨hk, _⟩ := h.known
        rw [hk.rep.resting] at hx' hxs
        by_contra hne
        have : side = sd.opposite := by cases side <;> cases sd <;> first | rfl | exact absurd rfl hne
        subst this
        exact hk.inv.ids_ne hx' hxs rfl
      · exact absurd hid.symm (hfresh _ hpo x hx)
    by_cases hs : ∃ o ∈ resting m' side, o.id = x.id
    · rw [h2 hs]
      obtain ⟨o, ho, hid⟩ := hs
      have hoa := ofId_some hm'.all_nodup (mem_allResting.2 ⟨side, ho⟩)
      rw [hid] at hoa
      rw [hoa]
      have hq := (huniq side o ho hid).2
      simp only [sumQty_cons, sumQty_nil, sumBase_nil, List.length_cons, List.length_nil]
      refine ⟨?_, trivial⟩
      omega
    · have hno : ∀ o ∈ resting m' side, o.id ≠ x.id := fun o ho hid => hs ⟨o, ho, hid⟩
      rw [h3 hno]
      have hal : ofId x.id (allResting m') = [] := by
        apply ofId_none
        intro o ho hid
        obtain ⟨sd, ho⟩ := mem_allResting.1 ho
        obtain ⟨rfl, _⟩ := huniq sd o ho hid
        exact hno o ho hid
      rw [hal]
      simp only [sumQty_cons, sumQty_nil, sumBase_cons, sumBase_nil, Event.base, List.length_cons, List.length_nil]
      refine ⟨?_, trivial⟩
      omega
  · have hx : ∀ o ∈ allResting m, o.id ≠ id := fun o ho hid => hx ⟨o, ho, hid⟩
    rw [ofId_none hx]
    have hev : ∀ e ∈ emitted m m', e.id ≠ id := by
      intro e hm hid
      obtain ⟨⟨o, ho, hoid, _⟩, _⟩ := C09_callback_info hr hp he hm
      exact hx o (mem_allResting.2 ⟨_, ho⟩) (hoid.trans hid)
    rw [outsOf_eq_nil hev, fillsOf_eq_nil hev]
    have hal : ∀ sd, ∀ o ∈ resting m' sd, o.id = id → s.postedOrderId = some id ∧ o.qty = s.totalBaseQtyPosted := by
      intro sd o ho hid
      rcases C48_nothing_appears hr hp he sd ho with ⟨x', hx', hid', _⟩ | ⟨_, hpo, hq, _⟩
      · exact absurd (hid'.trans hid) (hx x' (mem_allResting.2 ⟨sd, hx'⟩))
      · exact ⟨by rw [hpo, hid], hq⟩
    have hown := C48_own_side hr hp he
    unfold postedBy
    cases hi : s.postedOrderId with
    | none =>
      have : ofId id (allResting m') = [] := by
        apply ofId_none
        intro o ho hid
        obtain ⟨sd, ho⟩ := mem_allResting.1 ho
        have := (hal sd o ho hid).1
        rw [hi] at this; cases this
      rw [this]; simp
    | some i =>
      rw [hi] at hown
      simp only at hown ⊢
      obtain ⟨L, R, _, hown⟩ := hown
      have hmem : (⟨i, s.totalBaseQtyPosted, p.callbackInfo⟩ : Order C) ∈ allResting m' :=
        mem_allResting.2 ⟨p.side, by rw [hown]; simp⟩
      by_cases hii : i = id
      · subst hii
        have := ofId_some hm'.all_nodup hmem
        simp only at this
        rw [this]
        have e : ofId i [(⟨i, s.totalBaseQtyPosted, p.callbackInfo⟩ : Order C)] =
            [⟨i, s.totalBaseQtyPosted, p.callbackInfo⟩] := by simp [ofId]
        rw [e]; simp
      · have : ofId id (allResting m') = [] := by
          apply ofId_none
          intro o ho hid
          obtain ⟨sd, ho⟩ := mem_allResting.1 ho
          have := (hal sd o ho hid).1
          rw [hi] at this
          exact hii (Option.some.inj this)
        rw [this, ofId_none (by simpa using hii)]
        simp

/-! ### The invariant of a log -/

structure LogInv (m : Market C) (L : Log C) : Prop where
  qty : ∀ id, sumQty (ofId id L.posted) = sumBase (fillsOf id L.events) + sumBase (outsOf id L.events) +
    sumQty (ofId id L.cancelled) + sumQty (ofId id (allResting m))
  cnt : ∀ id, (ofId id L.posted).length = (outsOf id L.events).length + (ofId id L.cancelled).length +
    (ofId id (allResting m)).length
  rest : ∀ o ∈ allResting m, ∃ x ∈ L.posted, x.id = o.id ∧ x.cb = o.cb
  evs : ∀ e ∈ L.events, ∃ x ∈ L.posted, x.id = e.id ∧ x.cb = e.makerCb
  can : ∀ o ∈ L.cancelled, ∃ x ∈ L.posted, x.id = o.id ∧ x.cb = o.cb
  seqs : L.posted.Pairwise (fun x y => seqOfId x.id < seqOfId y.id)
  seq : ∀ x ∈ L.posted, seqOfId x.id < m.queue.header.seqNum
  queue : L.consumed ++ pending m = L.events

omit [CallbackInfo C] in
/-- A transaction that takes the orders with ids in `ids` off the book and does nothing else. -/
theorem LogInv.cancel {L : Log C} (h : LogInv m L) {ids : List Nat}
    (hrest : ∀ side, resting m' side = (resting m side).filter (fun x => decide (x.id ∉ ids)))
    (hpend : pending m' = pending m) (hseq : m'.queue.header.seqNum = m.queue.header.seqNum) :
    LogInv m' (L.append { cancelled := (allResting m).filter (fun o => decide (o.id ∈ ids)) }) := by
  have hall : allResting m' = (allResting m).filter (fun x => decide (x.id ∉ ids)) := by
    unfold allResting
    rw [hrest, hrest, List.filter_append]
  obtain ⟨h1, h2, h3, h4, h5, h6, h7, h8⟩ := h
  have hsplit : ∀ id, ofId id ((allResting m).filter (fun o => decide (o.id ∈ ids))) =
      (if decide (id ∈ ids) then ofId id (allResting m) else []) ∧
      ofId id (allResting m') = (if decide (id ∉ ids) then ofId id (allResting m) else []) := by
    intro id
    refine ⟨ofId_filter _ id _ (fun o ho => by rw [ho]), ?_⟩
    rw [hall]
    exact ofId_filter _ id _ (fun o ho => by rw [ho])
  constructor
  · intro id
    have := h1 id
    obtain ⟨e1, e2⟩ := hsplit id
    simp only [Log.append, List.append_nil, ofId_append, sumQty_append]
    rw [e1, e2]
    by_cases hid : id ∈ ids <;> simp [hid] <;> omega
  · intro id
    have := h2 id
    obtain ⟨e1, e2⟩ := hsplit id
    simp only [Log.append, List.append_nil, ofId_append, List.length_append]
    rw [e1, e2]
    by_cases hid : id ∈ ids <;> simp [hid] <;> omega
  · intro o ho
    rw [hall, List.mem_filter] at ho
    simpa only [Log.append, List.append_nil] using h3 o ho.1
  · simpa only [Log.append, List.append_nil] using h4
  · intro o ho
    simp only [Log.append, List.append_nil] at ho ⊢
    rcases List.mem_append.1 ho with ho | ho
    · exact h5 o ho
    · exact h3 o (List.mem_filter.1 ho).1
  · simpa only [Log.append, List.append_nil] using h6
  · rw [hseq]; simpa only [Log.append, List.append_nil] using h7
  · rw [hpend]; simpa only [Log.append, List.append_nil] using h8

theorem LogInv.newOrder {c is} (hr : ReachBy c is m) (hlen : is.length < 2 ^ 63) (hp : (Instr.newOrder p).Ok)
    (he : m.newOrder p = .ok (s, m')) {L : Log C} (h : LogInv m L) :
    LogInv m' (L.append (stepLog m (.newOrder p))) := by
  obtain ⟨h1, h2, h3, h4, h5, h6, h7, h8⟩ := h
  have hacc := new_account hr hlen hp he
  have hev : (stepLog m (.newOrder p)).events = emitted m m' := by simp only [stepLog, he]
  have hca : (stepLog m (.newOrder p)).cancelled = [] := by simp only [stepLog, he]
  have hco : (stepLog m (.newOrder p)).consumed = [] := by simp only [stepLog, he]
  have hpo : (stepLog m (.newOrder p)).posted = postedBy p s := by simp only [stepLog, he]
  obtain ⟨a, a', n, r, ex, v, _, _, _, _, hseq⟩ := hr.view hp he
  have hq : m.queue.header.seqNum ≤ m'.queue.header.seqNum := by
    rw [v.known.seqNum, v.known'.seqNum]
    rcases v.post with ⟨hc, _⟩ | ⟨hc, _⟩ | ⟨kept, ev, hc, _⟩ <;> rw [hc.seq] <;> omega
  have hnew : ∀ x ∈ (stepLog m (.newOrder p)).posted, s.postedOrderId = some x.id ∧ x.cb = p.callbackInfo := by
    rw [hpo]
    unfold postedBy
    intro x hx
    cases hi : s.postedOrderId with
    | none => rw [hi] at hx; simp at hx
    | some i =>
      rw [hi] at hx
      simp only [List.mem_singleton] at hx
      subst hx; exact ⟨rfl, rfl⟩
  have hseqnew : ∀ x ∈ (stepLog m (.newOrder p)).posted, seqOfId x.id = m.queue.header.seqNum ∧
      m'.queue.header.seqNum = m.queue.header.seqNum + 1 := by
    intro x hx
    obtain ⟨e1, e2, e3⟩ := posted_id hr hp he (hnew x hx).1
    refine ⟨?_, e2⟩
    rw [e1, seqOfId_mk (by omega)]
  constructor
  · intro id
    have e1 := h1 id
    have e2 := (hacc id).1
    simp only [Log.append, hev, hca, List.append_nil, ofId_append, sumQty_append, fillsOf_append, outsOf_append,
      sumBase_append]
    omega
  · intro id
    have e1 := h2 id
    have e2 := (hacc id).2
    simp only [Log.append, hev, hca, List.append_nil, ofId_append, List.length_append, outsOf_append]
    omega
  · intro o ho
    obtain ⟨side, ho⟩ := mem_allResting.1 ho
    rcases C48_nothing_appears hr.reachable hp he side ho with ⟨x, hx, hid, hcb, _⟩ | ⟨_, hid, hq, hcb⟩
    · obtain ⟨y, hy, e1, e2⟩ := h3 x (mem_allResting.2 ⟨side, hx⟩)
      exact ⟨y, List.mem_append_left _ hy, e1.trans hid, e2.trans hcb⟩
    · refine ⟨⟨o.id, s.totalBaseQtyPosted, p.callbackInfo⟩, List.mem_append_right _ ?_, rfl, hcb.symm⟩
      rw [hpo]; unfold postedBy; rw [hid]; simp
  · intro e hm
    simp only [Log.append, hev] at hm
    rcases List.mem_append.1 hm with hm | hm
    · obtain ⟨x, hx, h⟩ := h4 e hm
      exact ⟨x, List.mem_append_left _ hx, h⟩
    · obtain ⟨⟨o, ho, hid, hcb⟩, _⟩ := C09_callback_info hr.reachable hp he hm
      obtain ⟨y, hy, e1, e2⟩ := h3 o (mem_allResting.2 ⟨_, ho⟩)
      exact ⟨y, List.mem_append_left _ hy, e1.trans hid, e2.trans hcb⟩
  · intro o ho
    simp only [Log.append, hca, List.append_nil] at ho
    obtain ⟨x, hx, h⟩ := h5 o ho
    exact ⟨x, List.mem_append_left _ hx, h⟩
  · simp only [Log.append]
    rw [List.pairwise_append]
    refine ⟨h6, ?_, ?_⟩
    · rw [hpo]
      unfold postedBy
      cases s.postedOrderId <;> simp
    · intro x hx y hy
      rw [(hseqnew y hy).1]
      exact h7 x hx
  · intro x hx
    simp only [Log.append] at hx
    rcases List.mem_append.1 hx with hx | hx
    · have := h7 x hx; omega
    · obtain ⟨e1, e2⟩ := hseqnew x hx; omega
  · simp only [Log.append, hev, hco, List.append_nil]
    rw [← h8, List.append_assoc]
    congr 1
    have : pending m' = pending m ++ emitted m m' := by rw [v.pend', v.em, v.pend]
    exact this

omit [CallbackInfo C] in
@[simp] theorem Log.append_empty (L : Log C) : L.append {} = L := by
  simp [Log.append]

theorem LogInv.step {c is} (hr : ReachBy c is m) (hlen : is.length < 2 ^ 63) {i : Instr C} (hi : i.Ok)
    {L : Log C} (h : LogInv m L) : LogInv (m.step i) (L.append (stepLog m i)) := by
  cases i with
  | newOrder p =>
    cases he : m.newOrder p with
    | error e =>
      have h1 : m.step (.newOrder p) = m := by simp only [Market.step, Market.exec, he]; rfl
      have h2 : stepLog m (.newOrder p) = {} := by simp only [stepLog, he]
      rw [h1, h2, Log.append_empty]; exact h
    | ok x =>
      obtain ⟨s, m'⟩ := x
      have h1 : m.step (.newOrder p) = m' := by simp only [Market.step, Market.exec, he, ok_bind]
      rw [h1]
      exact h.newOrder hr hlen hi he
  | cancelOrder id =>
    cases he : m.cancelOrder id with
    | error e =>
      have h1 : m.step (.cancelOrder id) = m := by simp only [Market.step, Market.exec, he]; rfl
      have h2 : stepLog m (.cancelOrder id) = {} := by simp only [stepLog, he]
      rw [h1, h2, Log.append_empty]; exact h
    | ok x =>
      have hex : ∃ o ∈ allResting m, o.id = id := by
        by_contra hno
        have hno' : ∀ side, ∀ o ∈ resting m side, o.id ≠ id :=
          fun side o ho hid => hno ⟨o, mem_allResting.2 ⟨side, ho⟩, hid⟩
        rcases C22_cancel_missing hr.reachable hno' with h' | ⟨h', _⟩ <;> rw [h'] at he <;> cases he
      obtain ⟨o, ho, rfl⟩ := hex
      obtain ⟨_, h1, h2⟩ := hr.cancel_step (by omega) (mem_allResting.1 ho)
      have hsq : (m.step (.cancelOrder o.id)).queue.header.seqNum = m.queue.header.seqNum := by
        have : m.step (.cancelOrder o.id) = x.2 := by
          simp only [Market.step, Market.exec, he, ok_bind]
        rw [this]
        unfold Market.cancelOrder at he
        cases hc : Market.cancelIn m.book o.id with
        | error e => rw [hc] at he; cases he
        | ok y => rw [hc] at he; cases he; rfl
      have := h.cancel (ids := [o.id]) (m' := m.step (.cancelOrder o.id))
        (fun side => by
          rw [h1 side]; apply List.filter_congr
          intro y _
          by_cases hy : y.id = o.id <;> simp [hy]) h2 hsq
      have hlog : stepLog m (.cancelOrder o.id) =
          { cancelled := (allResting m).filter (fun y => decide (y.id ∈ [o.id])) } := by
        simp only [stepLog, he]
        congr 1
        apply List.filter_congr
        intro y _
        by_cases hy : y.id = o.id <;> simp [hy]
      rw [hlog]; exact this
  | massCancelOrders ids =>
    cases he : m.massCancelOrders ids with
    | error e =>
      have h1 : m.step (.massCancelOrders ids) = m := by simp only [Market.step, Market.exec, he]; rfl
      have h2 : stepLog m (.massCancelOrders ids) = {} := by simp only [stepLog, he]
      rw [h1, h2, Log.append_empty]; exact h
    | ok x =>
      obtain ⟨s, m1⟩ := x
      obtain ⟨os, hos⟩ := C24_only_if hr (by omega) he
      obtain ⟨m', e1, e2, e3⟩ := C24_mass_cancel hr (by omega) hos
      have hmm : m1 = m' := by
        rw [he] at e1
        exact (Prod.mk.inj (Except.ok.inj e1)).2
      subst hmm
      clear e1
      have h1 : m.step (.massCancelOrders ids) = m1 := by simp only [Market.step, Market.exec, he, ok_bind]
      have h2 : stepLog m (.massCancelOrders ids) =
          { cancelled := (allResting m).filter (fun y => decide (y.id ∈ ids)) } := by simp only [stepLog, he]
      rw [h1, h2]
      refine h.cancel e2 e3 ?_
      unfold Market.massCancelOrders at he
      cases hc : Market.massCancelLoop ids 0 0 m.book with
      | error e => rw [hc] at he; cases he
      | ok y => rw [hc] at he; cases he; rfl
  | consumeEvents n =>
    obtain ⟨m', e1, e2, e3, e4⟩ := C26_consume hr.reachable n
    have h1 : m.step (.consumeEvents n) = m' := by simp only [Market.step, Market.exec, e1, ok_bind]
    have h2 : stepLog m (.consumeEvents n) =
        { consumed := (pending m).take ((pending m).length - (pending m').length) } := by simp only [stepLog, e1]
    rw [h1, h2]
    have hall : allResting m' = allResting m := by unfold allResting; rw [e3, e3]
    obtain ⟨h1, h2, h3, h4, h5, h6, h7, h8⟩ := h
    constructor <;> simp only [Log.append, List.append_nil, hall, e4] <;> try assumption
    rw [List.append_assoc, ← h8]
    congr 1
    rw [e2, List.length_drop]
    by_cases hn : n ≤ (pending m).length
    · rw [show (pending m).length - ((pending m).length - n) = n by omega, List.take_append_drop]
    · rw [List.drop_eq_nil_of_le (by omega), List.append_nil, List.take_of_length_le (by omega)]

omit [CallbackInfo C] in
theorem Log.append_assoc (a b c : Log C) : (a.append b).append c = a.append (b.append c) := by
  simp [Log.append]

omit [CallbackInfo C] in
@[simp] theorem Log.empty_append (L : Log C) : ({} : Log C).append L = L := by
  simp [Log.append]

theorem runLog_snoc (is : List (Instr C)) (i : Instr C) : ∀ (m : Market C),
    runLog m (is ++ [i]) = (runLog m is).append (stepLog (m.run is) i) := by
  induction is with
  | nil => intro m; simp [runLog, Market.run]
  | cons j is ih =>
    intro m
    simp only [List.cons_append, runLog, ih, Log.append_assoc]
    rfl

theorem runLog_append (is js : List (Instr C)) : ∀ (m : Market C),
    runLog m (is ++ js) = (runLog m is).append (runLog (m.run is) js) := by
  induction is with
  | nil => intro m; simp [runLog, Market.run]
  | cons j is ih =>
    intro m
    simp only [List.cons_append, runLog, ih, Log.append_assoc]
    rfl

omit [CallbackInfo C] in
theorem LogInv.create {c : Config} (hc : c.Valid) (c0 : C) : LogInv (c.market c0) ({} : Log C) := by
  obtain ⟨h1, h2⟩ := create_refines hc c0
  have hall : allResting (c.market c0) = [] := by
    rw [Known_all h1]; rfl
  have hpend : pending (c.market c0) = [] := by rw [h1.pending]; rfl
  constructor <;> simp [hall, hpend]

theorem HistoryOf.reachBy {c is} {L : Log C} (h : HistoryOf c is m L) : ReachBy c is m := by
  obtain ⟨h1, h2, c0, h3, _⟩ := h
  exact ⟨h1, h2, c0, h3⟩

theorem HistoryOf.inv {c is} {L : Log C} (h : HistoryOf c is m L) (hlen : is.length ≤ 2 ^ 63) : LogInv m L := by
  obtain ⟨hv, hok, c0, rfl, rfl⟩ := h
  induction is using List.reverseRecOn with
  | nil => exact LogInv.create hv c0
  | append_singleton is i ih =>
    rw [runLog_snoc]
    have : (c.market c0).run (is ++ [i]) = ((c.market c0).run is).step i := by simp [Market.run]
    rw [this]
    rw [List.length_append, List.length_singleton] at hlen
    refine (ih (by omega) ?_).step (c := c) (is := is) ⟨hv, ?_, c0, rfl⟩ (by omega) (hok i (by simp))
    · exact fun j hj => hok j (by simp [hj])
    · exact fun j hj => hok j (by simp [hj])

/-! ### The theorems -/

variable {c : Config} {is : List (Instr C)} {L : Log C}

theorem HistoryOf.marked (h : HistoryOf c is m L) : m.book.Marked (fun k => ∃ o ∈ L.posted, o.id = k) := by
  obtain ⟨hv, hok, c0, rfl, rfl⟩ := h
  clear hok
  induction is using List.reverseRecOn with
  | nil => intro sd i hi; cases sd <;> exact absurd hi (Nat.not_lt_zero i)
  | append_singleton is i ih =>
    rw [runLog_snoc]
    have : (c.market c0).run (is ++ [i]) = ((c.market c0).run is).step i := by simp [Market.run]
    rw [this]
    generalize (c.market c0).run is = m at ih
    have ih : m.book.Marked (fun k => ∃ o ∈ ((runLog (c.market c0) is).append (stepLog m i)).posted, o.id = k) :=
      fun sd => (ih sd).mono (fun k ⟨o, ho, e⟩ => ⟨o, List.mem_append_left _ ho, e⟩)
    unfold Market.step
    split
    · rename_i r m' he
      cases i with
      | newOrder p =>
        obtain ⟨⟨s, m1⟩, h1, h2⟩ := bind_ok he
        obtain ⟨rfl, rfl⟩ := Prod.mk.inj (Except.ok.inj h2)
        have hs : stepLog m (.newOrder p) = { posted := postedBy p s, events := emitted m m1 } := by
          unfold stepLog; simp only [h1]
        rw [hs] at ih ⊢
        unfold Market.newOrder at h1
        obtain ⟨_, _, h1⟩ := bind_ok h1
        split at h1
        · cases h1
        split at h1
        · cases h1
        obtain ⟨⟨s', b', q'⟩, h3, h2⟩ := bind_ok h1
        obtain ⟨rfl, rfl⟩ := Prod.mk.inj (Except.ok.inj h2)
        refine newOrder_marked ih h3 (fun id hid => ⟨⟨id, s'.totalBaseQtyPosted, p.callbackInfo⟩,
          List.mem_append_right _ ?_, rfl⟩)
        unfold postedBy; simp [hid]
      | cancelOrder id =>
        obtain ⟨⟨s, m1⟩, h1, h2⟩ := bind_ok he
        obtain ⟨rfl, rfl⟩ := Prod.mk.inj (Except.ok.inj h2)
        obtain ⟨⟨s', b'⟩, h3, h2⟩ := bind_ok h1
        obtain ⟨rfl, rfl⟩ := Prod.mk.inj (Except.ok.inj h2)
        exact cancelIn_marked ih h3
      | massCancelOrders ids =>
        obtain ⟨⟨s, m1⟩, h1, h2⟩ := bind_ok he
        obtain ⟨rfl, rfl⟩ := Prod.mk.inj (Except.ok.inj h2)
        obtain ⟨⟨x, y, b'⟩, h3, h2⟩ := bind_ok h1
        obtain ⟨rfl, rfl⟩ := Prod.mk.inj (Except.ok.inj h2)
        exact massCancelLoop_marked ih h3
      | consumeEvents n =>
        obtain ⟨m1, h1, h2⟩ := bind_ok he
        obtain ⟨rfl, rfl⟩ := Prod.mk.inj (Except.ok.inj h2)
        obtain ⟨q', h1, h2⟩ := bind_ok h1
        obtain rfl := Except.ok.inj h2
        exact ih
    · exact ih

/-- C22: cancelling an id under which no order was ever posted is always answered by `OrderNotFound`. -/
theorem C22_never_posted (h : HistoryOf c is m L) {id : Nat} (hno : ∀ o ∈ L.posted, o.id ≠ id) :
    m.cancelOrder id = .error (.ao .orderNotFound) := by
  have hm := h.marked
  obtain ⟨a, ha⟩ := h.reachBy.reachable.known
  have hp : PRep _ _ _ := ha.rep.tree (getSideFromOrderId id)
  have hk := SRep.marked hp (hm (getSideFromOrderId id))
  have hr := SRep.remove_missing hp (key := id) (by
    rintro o ho rfl
    obtain ⟨o', ho', e⟩ := hk.1 o ho
    exact hno o' ho' e)
  unfold Market.cancelOrder Market.cancelIn
  rcases hr with hr | ⟨h1, h2, hr⟩
  · simp only [hr, ok_bind]
    rfl
  · obtain ⟨o', ho', e⟩ := hk.2 (by intro h; rw [h] at h1; cases h1) id h2
    exact absurd e (hno o' ho')

/-- C10: two posted orders never have the same id; ids are numbered in the order of posting. -/
theorem C10_unique_ids (h : HistoryOf c is m L) (hlen : is.length ≤ 2 ^ 63) :
    (L.posted.map Order.id).Nodup ∧ L.posted.Pairwise (fun x y => seqOfId x.id < seqOfId y.id) := by
  have hi := h.inv hlen
  refine ⟨?_, hi.seqs⟩
  rw [List.Nodup, List.pairwise_map]
  exact hi.seqs.imp (fun hlt he => by rw [he] at hlt; omega)

/-- C10: a newly posted id is neither resting nor was it ever posted before. -/
theorem C10_fresh (h : HistoryOf c is m L) (hlen : is.length < 2 ^ 63) (hp : (Instr.newOrder p).Ok)
    (he : m.newOrder p = .ok (s, m')) {id : Nat} (hid : s.postedOrderId = some id) :
    (∀ side, ∀ o ∈ resting m side, o.id ≠ id) ∧ ∀ x ∈ L.posted, x.id ≠ id := by
  refine ⟨fun side o ho => posted_fresh h.reachBy hlen hp he hid o (mem_allResting.2 ⟨side, ho⟩), ?_⟩
  intro x hx heq
  have h1 := (h.inv (by omega)).seq x hx
  obtain ⟨e1, _, e3⟩ := posted_id h.reachBy hp he hid
  rw [heq, e1, seqOfId_mk (by omega)] at h1
  omega

/-- C11: the upper 64 bits of a posted id are the limit price, and the code recovers the side of the order
from the id. -/
theorem C11_posted_id (h : ReachBy c is m) (hlen : is.length < 2 ^ 63) (hp : (Instr.newOrder p).Ok)
    (he : m.newOrder p = .ok (s, m')) {id : Nat} (hid : s.postedOrderId = some id) :
    id / 2 ^ 64 = p.limitPrice ∧ priceFromKey id = p.limitPrice ∧ getSideFromOrderId id = p.side ∧ id < 2 ^ 128 := by
  obtain ⟨e1, _, e3⟩ := posted_id h hp he hid
  have hpr : id / 2 ^ 64 = p.limitPrice := by rw [e1]; exact mkOrderId_price (by omega)
  have hlt : id < 2 ^ 128 := by rw [e1]; exact mkOrderId_lt hp.1 (by omega)
  refine ⟨hpr, ?_, ?_, hlt⟩
  · rw [← hpr]; exact priceFromKey_eq hlt
  · rw [sideOfId_eq, e1]; exact mkOrderId_side (by omega)

/-- C11: the id is the limit price followed by the number of the order, complemented for a bid. The number used is the
next one. A new order uses up one number exactly when there is something to post by the rules of C15 (also when a full
side then refuses it), and no other instruction uses any. -/
theorem C11_next_id (h : ReachBy c is m) :
    (∀ p s m', (Instr.newOrder p).Ok → m.newOrder p = .ok (s, m') →
      (∀ id, s.postedOrderId = some id → id = p.limitPrice * 2 ^ 64 +
        (match p.side with | .bid => 2 ^ 64 - 1 - m.queue.header.seqNum | .ask => m.queue.header.seqNum)) ∧
      ((p.postAllowed = true ∧ rounds p (emitted m m') < p.matchLimit ∧
          (∀ o ∈ resting m' p.side.opposite, ¬ p.side.accepts p.limitPrice o.price = true) ∧
          c.minBase ≤ remainder p (emitted m m')) ∧ m'.queue.header.seqNum = m.queue.header.seqNum + 1 ∨
       ¬ (p.postAllowed = true ∧ rounds p (emitted m m') < p.matchLimit ∧
          (∀ o ∈ resting m' p.side.opposite, ¬ p.side.accepts p.limitPrice o.price = true) ∧
          c.minBase ≤ remainder p (emitted m m')) ∧ m'.queue.header.seqNum = m.queue.header.seqNum)) ∧
    (∀ i : Instr C, (∀ p, i ≠ .newOrder p) → (m.step i).queue.header.seqNum = m.queue.header.seqNum) ∧
    m.queue.header.seqNum ≤ is.length := by
  refine ⟨?_, ?_, ?_⟩
  · intro p s m' hp he
    refine ⟨?_, ?_⟩
    · intro id hid
      obtain ⟨e1, e2, _⟩ := posted_id h hp he hid
      rw [e1]; unfold mkOrderId
      cases p.side <;> rfl
    · obtain ⟨a, a', n, r, ex, v, hmin, _⟩ := h.view hp he
      rw [v.known.seqNum, v.known'.seqNum, v.rounds, v.remainder, v.rest', v.opp', ← hmin]
      have hcr := v.crossed
      have hacc : (∀ o ∈ r.opp, ¬ p.side.accepts p.limitPrice o.price = true) ↔
          (∀ o ∈ r.opp, p.side.accepts p.limitPrice o.price = false) := by
        simp only [Bool.not_eq_true]
      rw [hacc]
      rcases v.post with ⟨hc, _⟩ | ⟨hc, _⟩ | ⟨kept, ev, hc, _⟩
      · refine .inr ⟨?_, hc.seq⟩
        rintro ⟨h1, h2, h3, h4⟩
        rcases hc.why with h5 | h5 | h5
        · rw [hcr.2 ⟨h2, h3⟩] at h5; cases h5
        · rw [h1] at h5; cases h5
        · exact absurd h4 (Nat.not_le.2 h5)
      all_goals
        obtain ⟨g1, g2⟩ := hcr.1 hc.tried.crossed
        exact .inl ⟨⟨hc.tried.allowed, g1, g2, hc.tried.min⟩, hc.seq⟩
  · intro i hne
    unfold Market.step
    cases he : m.exec i with
    | error e => rfl
    | ok x =>
      cases i with
      | newOrder p => exact absurd rfl (hne p)
      | cancelOrder id =>
        obtain ⟨_, h1, h2⟩ := bind_ok he
        cases h2
        obtain ⟨_, h1, h2⟩ := bind_ok h1
        cases h2; rfl
      | massCancelOrders ids =>
        obtain ⟨_, h1, h2⟩ := bind_ok he
        cases h2
        obtain ⟨_, h1, h2⟩ := bind_ok h1
        cases h2; rfl
      | consumeEvents n =>
        obtain ⟨m', e1, _, _, e4⟩ := C26_consume h.reachable n
        obtain ⟨m1, h1, h2⟩ := bind_ok he
        rw [e1] at h1
        cases h1; cases h2; exact e4
  · obtain ⟨hk, hseq, _⟩ := h.known
    rw [hk.seqNum]; exact hseq

omit [CallbackInfo C] in
/-- C11, the arithmetic alone: for every price, side and sequence number below `2^63`. -/
theorem C11_gen_order_id (q : EventQueue C) (price : Nat) (hprice : price < 2 ^ 64) (side : Side)
    (hseq : q.header.seqNum < 2 ^ 63) :
    ∃ id q', q.genOrderId price side = .ok (id, q') ∧ id / 2 ^ 64 = price ∧ priceFromKey id = price ∧
      getSideFromOrderId id = side ∧ q'.header.seqNum = q.header.seqNum + 1 := by
  refine ⟨_, _, genOrderId_ok (by omega) price side, mkOrderId_price (by omega), ?_, ?_, rfl⟩
  · rw [priceFromKey_eq (mkOrderId_lt hprice (by omega))]; exact mkOrderId_price (by omega)
  · rw [sideOfId_eq]; exact mkOrderId_side hseq

omit [CallbackInfo C] in
/-- C10 and C11 cannot hold beyond `2^63`: the ask with any later sequence number `s` gets the id the bid with sequence
number `2^64 - 1 - s` got at the same price, and the id names the bid side. -/
theorem C10_limit_witness (q q' : EventQueue C) (price : Nat) (h : 2 ^ 63 ≤ q.header.seqNum)
    (h' : q.header.seqNum < 2 ^ 64 - 1) (hq' : q'.header.seqNum = 2 ^ 64 - 1 - q.header.seqNum) :
    ∃ id r r', q.genOrderId price .ask = .ok (id, r) ∧ q'.genOrderId price .bid = .ok (id, r') ∧
      getSideFromOrderId id = .bid := by
  have e : mkOrderId .bid price q'.header.seqNum = mkOrderId .ask price q.header.seqNum := by
    unfold mkOrderId; rw [hq']; dsimp only; omega
  have g1 := genOrderId_ok (q := q) (by omega) price .ask
  have g2 := genOrderId_ok (q := q') (by omega) price .bid
  rw [e] at g2
  refine ⟨_, _, _, g1, g2, ?_⟩
  rw [sideOfId_eq, ← e]
  exact mkOrderId_side (by omega)

/-- C11: every resting order is found by the code on the side its id names. -/
theorem C11_resting_side (h : ReachBy c is m) (hlen : is.length ≤ 2 ^ 63) {side : Side} {o : Order C}
    (ho : o ∈ resting m side) : getSideFromOrderId o.id = side := by
  obtain ⟨hk, hseq, _⟩ := h.known
  rw [hk.rep.resting] at ho
  rw [sideOfId_eq]
  exact (hk.inv.ok side o ho).sideOfId (by omega)

/-- C07: the quantity posted under an id is what its fills took, plus what was given back when it left the book
(out event or cancellation), plus what still rests. -/
theorem C07_conservation (h : HistoryOf c is m L) (hlen : is.length ≤ 2 ^ 63) {o : Order C} (ho : o ∈ L.posted) :
    o.qty = sumBase (fillsOf o.id L.events) + sumBase (outsOf o.id L.events) + sumQty (ofId o.id L.cancelled) +
      sumQty (ofId o.id (allResting m)) := by
  have h1 := (h.inv hlen).qty o.id
  rw [ofId_some (C10_unique_ids h hlen).1 ho, sumQty_cons, sumQty_nil, Nat.add_zero] at h1
  exact h1

/-- C07: each posted order has exactly one fate: one out event, one cancellation, or it still rests. -/
theorem C07_one_fate (h : HistoryOf c is m L) (hlen : is.length ≤ 2 ^ 63) {o : Order C} (ho : o ∈ L.posted) :
    (outsOf o.id L.events).length + (ofId o.id L.cancelled).length + (ofId o.id (allResting m)).length = 1 := by
  have h1 := (h.inv hlen).cnt o.id
  rw [ofId_some (C10_unique_ids h hlen).1 ho] at h1
  simpa using h1.symm

/-- C07, C09: nothing rests, is traded, taken out or cancelled that was not posted, and it carries the callback
info it was posted with. -/
theorem C09_from_posting (h : HistoryOf c is m L) (hlen : is.length ≤ 2 ^ 63) :
    (∀ e ∈ L.events, ∃ x ∈ L.posted, x.id = e.id ∧ x.cb = e.makerCb) ∧
    (∀ e ∈ pending m, ∃ x ∈ L.posted, x.id = e.id ∧ x.cb = e.makerCb) ∧
    (∀ side, ∀ o ∈ resting m side, ∃ x ∈ L.posted, x.id = o.id ∧ x.cb = o.cb ∧ o.qty ≤ x.qty) ∧
    (∀ o ∈ L.cancelled, ∃ x ∈ L.posted, x.id = o.id ∧ x.cb = o.cb ∧ o.qty ≤ x.qty) := by
  have hi := h.inv hlen
  refine ⟨hi.evs, fun e he => hi.evs e (by rw [← hi.queue]; exact List.mem_append_right _ he), ?_, ?_⟩
  · intro side o ho
    have hoa := mem_allResting.2 ⟨side, ho⟩
    obtain ⟨x, hx, h1, h2⟩ := hi.rest o hoa
    refine ⟨x, hx, h1, h2, ?_⟩
    have := C07_conservation h hlen hx
    rw [h1, ofId_some h.reachBy.all_nodup hoa, sumQty_cons] at this
    omega
  · intro o ho
    obtain ⟨x, hx, h1, h2⟩ := hi.can o ho
    refine ⟨x, hx, h1, h2, ?_⟩
    have hc := C07_conservation h hlen hx
    have hle : o.qty ≤ sumQty (ofId x.id L.cancelled) := by
      have hm : o ∈ ofId x.id L.cancelled := List.mem_filter.2 ⟨ho, by simp [h1]⟩
      obtain ⟨l1, l2, e⟩ := List.append_of_mem hm
      rw [e, sumQty_append, sumQty_cons]
      omega
    omega

/-- C35: of two orders of one side and price that rest, the one posted first ranks first. -/
theorem C35_time_priority (h : HistoryOf c is m L) (hlen : is.length ≤ 2 ^ 63) {side : Side} {x y : Order C}
    (hx : x ∈ resting m side) (hy : y ∈ resting m side) (hprice : x.price = y.price)
    {x0 y0 : Order C} (hxy : [x0, y0].Sublist L.posted) (hx0 : x0.id = x.id) (hy0 : y0.id = y.id) :
    [x, y].Sublist (resting m side) := by
  have hi := h.inv hlen
  obtain ⟨hk, hseq, _⟩ := h.reachBy.known
  have hlt : seqOfId x.id < seqOfId y.id := by
    rw [← hx0, ← hy0]
    have := hi.seqs.sublist hxy
    simpa using this
  rw [hk.rep.resting] at hx hy ⊢
  obtain ⟨nx, hnx, ex⟩ := (hk.inv.ok side x hx).id
  obtain ⟨ny, hny, ey⟩ := (hk.inv.ok side y hy).id
  have sx : seqOfId x.id = nx := by rw [ex]; exact seqOfId_mk (by omega)
  have sy : seqOfId y.id = ny := by rw [ey]; exact seqOfId_mk (by omega)
  apply sublist_of_rel (R := side.before) ?_ ?_ (hk.inv.sorted side) hx hy
  · rw [before_iff (by omega) (by omega) ex ey]
    right; exact ⟨hprice, by omega⟩
  · intro a; cases side <;> simp [Side.before]
  · intro a b; cases side <;> simp only [Side.before] <;> omega

/-- C02, rank: of two orders that rest on one side, the one posted first ranks first exactly if its price is as good as
the other's: the resting orders are listed by price, and at equal price in the order of posting. -/
theorem C02_price_then_time (h : HistoryOf c is m L) (hlen : is.length ≤ 2 ^ 63) {side : Side} {x y : Order C}
    (hx : x ∈ resting m side) (hy : y ∈ resting m side)
    {x0 y0 : Order C} (hxy : [x0, y0].Sublist L.posted) (hx0 : x0.id = x.id) (hy0 : y0.id = y.id) :
    ([x, y].Sublist (resting m side) ↔ match side with | .bid => y.price ≤ x.price | .ask => x.price ≤ y.price) ∧
    ([y, x].Sublist (resting m side) ↔ match side with | .bid => x.price < y.price | .ask => y.price < x.price) := by
  have hi := h.inv hlen
  obtain ⟨hk, hseq, _⟩ := h.reachBy.known
  have hlt : seqOfId x.id < seqOfId y.id := by
    rw [← hx0, ← hy0]
    have := hi.seqs.sublist hxy
    simpa using this
  rw [hk.rep.resting] at hx hy ⊢
  obtain ⟨nx, hnx, ex⟩ := (hk.inv.ok side x hx).id
  obtain ⟨ny, hny, ey⟩ := (hk.inv.ok side y hy).id
  have sx : seqOfId x.id = nx := by rw [ex]; exact seqOfId_mk (by omega)
  have sy : seqOfId y.id = ny := by rw [ey]; exact seqOfId_mk (by omega)
  have key : ∀ {a b : Order C}, a ∈ ((c.ref : RefMarket C).run is).orders side →
      b ∈ ((c.ref : RefMarket C).run is).orders side →
      ([a, b].Sublist (((c.ref : RefMarket C).run is).orders side) ↔ side.before a b) := by
    intro a b ha hb
    refine ⟨fun hs => ?_, fun hs => sublist_of_rel (R := side.before) ?_ ?_ (hk.inv.sorted side) ha hb hs⟩
    · have := (hk.inv.sorted side).sublist hs
      simpa using this
    · intro a; cases side <;> simp [Side.before]
    · intro a b; cases side <;> simp only [Side.before] <;> omega
  rw [key hx hy, key hy hx, before_iff (by omega) (by omega) ex ey, before_iff (by omega) (by omega) ey ex]
  cases side <;> simp only <;> omega

/-- C49: the events consumed so far followed by those still queued are exactly the events emitted, in order. -/
theorem C49_no_event_lost (h : HistoryOf c is m L) (hlen : is.length ≤ 2 ^ 63) :
    L.consumed ++ pending m = L.events := (h.inv hlen).queue

/-! ### A concrete history -/

/-- The demo history, the crossing order, a cancellation, a cancellation that fails, a mass cancellation, a partial
consumption and one more order. -/
def demoLong : List (Instr DemoCb) :=
  demoHist ++ [.newOrder demoTake, .cancelOrder (11 * 2 ^ 96 + (2 ^ 64 - 1 - 6)), .cancelOrder 5,
    .massCancelOrders [9 * 2 ^ 96 + (2 ^ 64 - 1 - 3)], .consumeEvents 4, .newOrder (demoOrder .ask 9 12 8)]

def demoEnd : Market DemoCb := (demoCfg.market ⟨0, 0⟩).run demoLong
def demoLog : Log DemoCb := runLog (demoCfg.market ⟨0, 0⟩) demoLong

theorem demo_history : HistoryOf demoCfg demoLong demoEnd demoLog :=
  ⟨demo_valid, by decide +kernel, ⟨0, 0⟩, rfl, rfl⟩

example : demoLog.posted.map (fun o => (o.qty, o.price / 2 ^ 32, o.cb.user)) =
    [(5, 10, 1), (6, 11, 2), (7, 10, 3), (8, 9, 4), (3, 8, 5), (4, 9, 6), (3, 11, 3), (9, 12, 8)] ∧
    demoLog.cancelled.map (fun o => (o.qty, o.cb.user)) = [(3, 3), (8, 4)] ∧
    demoLog.consumed.length = 4 ∧ (pending demoEnd).length = 2 ∧
    (allResting demoEnd).map (fun o => (o.qty, o.cb.user)) = [(4, 6), (9, 8)] := by decide +kernel

example := C10_unique_ids demo_history (by decide)
example : demoEnd.cancelOrder (10 * 2 ^ 96 + 1) = .error (.ao .orderNotFound) :=
  C22_never_posted demo_history (by decide +kernel)
example := C07_conservation demo_history (by decide) (o := ⟨10 * 2 ^ 96, 5, ⟨1, 7⟩⟩) (by decide +kernel)
example := C07_one_fate demo_history (by decide) (o := ⟨10 * 2 ^ 96, 5, ⟨1, 7⟩⟩) (by decide +kernel)
example := C09_from_posting demo_history (by decide)
example := C49_no_event_lost demo_history (by decide)

theorem demo_history0 : HistoryOf demoCfg demoHist demo (runLog (demoCfg.market ⟨0, 0⟩) demoHist) :=
  ⟨demo_valid, by decide +kernel, ⟨0, 0⟩, rfl, rfl⟩

example := C10_fresh demo_history0 (by decide) demoTake_ok demo_take rfl
example := C11_posted_id demo_reachBy (by decide) demoTake_ok demo_take rfl
example := C11_next_id demo_reachBy
example : demoSum.postedOrderId = some (11 * 2 ^ 32 * 2 ^ 64 + (2 ^ 64 - 1 - demo.queue.header.seqNum)) :=
  congrArg some (((C11_next_id demo_reachBy).1 demoTake demoSum demoAfter demoTake_ok demo_take).1 _ rfl)
example := C11_gen_order_id demo.queue (7 * 2 ^ 32) (by decide) .bid (by decide +kernel)
example := C11_resting_side demo_reachBy (by decide) (side := .bid) (o := ⟨8 * 2 ^ 96 + (2 ^ 64 - 1 - 4), 3, ⟨5, 7⟩⟩)
  (by decide +kernel)
/-- Two asks at price 10, posted first and third. -/
example := C35_time_priority demo_history0 (by decide) (side := .ask)
  (x := ⟨10 * 2 ^ 96, 5, ⟨1, 7⟩⟩) (y := ⟨10 * 2 ^ 96 + 2, 7, ⟨3, 7⟩⟩) (by decide +kernel) (by decide +kernel)
  (by decide +kernel) (x0 := ⟨10 * 2 ^ 96, 5, ⟨1, 7⟩⟩) (y0 := ⟨10 * 2 ^ 96 + 2, 7, ⟨3, 7⟩⟩)
  (by decide +kernel) rfl rfl

/-- C02: the ask at 11 was posted second and ranks after the one at 10 posted third. -/
example := C02_price_then_time demo_history0 (by decide) (side := .ask)
  (x := ⟨11 * 2 ^ 96 + 1, 6, ⟨2, 7⟩⟩) (y := ⟨10 * 2 ^ 96 + 2, 7, ⟨3, 7⟩⟩) (by decide +kernel) (by decide +kernel)
  (x0 := ⟨11 * 2 ^ 96 + 1, 6, ⟨2, 7⟩⟩) (y0 := ⟨10 * 2 ^ 96 + 2, 7, ⟨3, 7⟩⟩) (by decide +kernel) rfl rfl

end AOB
