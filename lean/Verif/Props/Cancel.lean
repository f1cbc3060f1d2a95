import Verif.Props.Matching
import Verif.Props.Failure
/-
`cancel_order` and `mass_cancel_orders` on reachable markets.
-/
namespace AOB
variable {C : Type}

/-! ### The reference engine -/

/-- All resting orders. -/
def RefMarket.all (a : RefMarket C) : List (Order C) := a.bids ++ a.asks

theorem RefMarket.mem_all {a : RefMarket C} {o : Order C} : o ∈ a.all ↔ ∃ side, o ∈ a.orders side := by
  unfold RefMarket.all
  rw [List.mem_append]
  constructor
  · rintro (h | h)
    · exact ⟨.bid, h⟩
    · exact ⟨.ask, h⟩
  · rintro ⟨side, h⟩
    cases side
    · exact Or.inl h
    · exact Or.inr h

theorem OrdOk.sideOfId {side : Side} {seq mb tk : Nat} {o : Order C} (h : OrdOk side seq mb tk o)
    (hseq : seq ≤ 2 ^ 63) : sideOfId o.id = side := by
  obtain ⟨n, hn, hid⟩ := h.id
  unfold AOB.sideOfId
  cases side <;> simp only [mkOrderId] at hid
  · rw [if_neg (by omega)]
  · rw [if_pos (by omega)]

theorem RefInv.all_unique {a : RefMarket C} (h : RefInv a) {x y : Order C} (hx : x ∈ a.all) (hy : y ∈ a.all)
    (hid : x.id = y.id) : x = y := by
  obtain ⟨sx, hx⟩ := RefMarket.mem_all.1 hx
  obtain ⟨sy, hy⟩ := RefMarket.mem_all.1 hy
  have key : ∀ {l : List (Order C)}, (l.map Order.id).Nodup → x ∈ l → y ∈ l → x = y := by
    intro l hn hx hy
    exact List.inj_on_of_nodup_map hn hx hy hid
  have hop : sy = sx ∨ sy = sx.opposite := by cases sx <;> cases sy <;> simp [Side.opposite]
  rcases hop with rfl | rfl
  · exact key (h.nodup _) hx hy
  · exact absurd hid (h.ids_ne hx hy)

/-- Cancelling, on a market young enough for ids to tell the side. -/
theorem cancel1_some {a : RefMarket C} (h : RefInv a) (hseq : a.seq ≤ 2 ^ 63) {o : Order C} (ho : o ∈ a.all) :
    ∃ a', a.cancel1 o.id = some (o, a') ∧
      ∀ side, a'.orders side = (a.orders side).filter (fun x => x.id != o.id) := by
  obtain ⟨side, hs⟩ := RefMarket.mem_all.1 ho
  have hside := (h.ok side o hs).sideOfId hseq
  unfold RefMarket.cancel1
  rw [hside]
  have hf : (a.orders side).find? (fun x => x.id == o.id) = some o := by
    cases hf : (a.orders side).find? (fun x => x.id == o.id) with
    | none =>
      rw [List.find?_eq_none] at hf
      exact absurd (hf o hs) (by simp)
    | some y =>
      have h1 := List.find?_some hf
      have h2 := List.mem_of_find?_eq_some hf
      rw [beq_iff_eq] at h1
      rw [h.all_unique (RefMarket.mem_all.2 ⟨side, h2⟩) ho h1]
  rw [hf]
  refine ⟨_, rfl, side_cases (P := fun s => (a.setOrders side _).orders s = _) side ?_ ?_⟩
  · rw [RefMarket.orders_setOrders]
  · rw [RefMarket.orders_opp_setOrders]
    symm
    rw [List.filter_eq_self]
    intro x hx
    have := h.ids_ne hs hx
    simp [bne_iff_ne]
    exact fun hh => this hh.symm

theorem cancel1_none {a : RefMarket C} {id : Nat} (hno : ∀ o ∈ a.all, o.id ≠ id) : a.cancel1 id = none := by
  unfold RefMarket.cancel1
  have : (a.orders (sideOfId id)).find? (fun x => x.id == id) = none := by
    rw [List.find?_eq_none]
    intro x hx
    have := hno x (RefMarket.mem_all.2 ⟨_, hx⟩)
    simpa using this
  rw [this]

theorem cancel1_mem {a : RefMarket C} {id : Nat} {o a'} (hc : a.cancel1 id = some (o, a')) : o ∈ a.all ∧ o.id = id := by
  unfold RefMarket.cancel1 at hc
  split at hc
  · cases hc
  · rename_i hf
    cases hc
    have h1 := List.find?_some hf
    rw [beq_iff_eq] at h1
    exact ⟨RefMarket.mem_all.2 ⟨_, List.mem_of_find?_eq_some hf⟩, h1⟩

theorem mem_all_of_filter {a a' : RefMarket C} {f : Order C → Bool}
    (h : ∀ side, a'.orders side = (a.orders side).filter f) {o : Order C} : o ∈ a'.all ↔ o ∈ a.all ∧ f o = true := by
  rw [RefMarket.mem_all, RefMarket.mem_all]
  constructor
  · rintro ⟨s, hs⟩
    rw [h, List.mem_filter] at hs
    exact ⟨⟨s, hs.1⟩, hs.2⟩
  · rintro ⟨⟨s, hs⟩, hf⟩
    exact ⟨s, by rw [h, List.mem_filter]; exact ⟨hs, hf⟩⟩

theorem massCancel_succeeds : ∀ (os : List (Order C)) (b q : Nat) (a : RefMarket C), RefInv a → a.seq ≤ 2 ^ 63 →
    (os.map Order.id).Nodup → (∀ o ∈ os, o ∈ a.all) → b + (os.map Order.qty).sum < 2 ^ 64 →
    (os.map Order.value).sum + q < 2 ^ 64 →
    ∃ a', RefMarket.massCancelFrom (os.map Order.id) b q a =
        .ok (b + (os.map Order.qty).sum, (os.map Order.value).sum + q, a') ∧
      a'.events = a.events ∧
      ∀ side, a'.orders side = (a.orders side).filter (fun x => decide (x.id ∉ os.map Order.id)) := by
  intro os
  induction os with
  | nil =>
    intro b q a _ _ _ _ _ _
    refine ⟨a, by simp [RefMarket.massCancelFrom], rfl, fun side => ?_⟩
    symm
    rw [List.filter_eq_self]
    simp
  | cons o os ih =>
    intro b q a ha hseq hnd hmem hb hq
    rw [List.map_cons, List.nodup_cons] at hnd
    rw [List.map_cons, List.sum_cons] at hb hq
    obtain ⟨a1, h1, h2⟩ := cancel1_some ha hseq (hmem o (by simp))
    obtain ⟨_, hs1, he1⟩ := cancel1_params h1
    have hw : worth .ask o.qty o.price = o.value := rfl
    obtain ⟨a2, h3, h4, h5⟩ := ih (b + o.qty) (worth .ask o.qty o.price + q) a1 (cancel1_inv ha h1) (by omega) hnd.2
      (by
        intro x hx
        rw [mem_all_of_filter h2]
        refine ⟨hmem x (List.mem_cons_of_mem _ hx), ?_⟩
        rw [bne_iff_ne]
        intro hid
        exact hnd.1 (hid ▸ List.mem_map_of_mem hx))
      (by omega) (by rw [hw]; omega)
    refine ⟨a2, ?_, h4.trans he1, fun side => ?_⟩
    · rw [List.map_cons]
      unfold RefMarket.massCancelFrom
      rw [h1]
      simp only
      rw [if_pos (by rw [hw]; omega), h3]
      simp only [List.map_cons, List.sum_cons, hw, Except.ok.injEq, Prod.mk.injEq, and_true]
      omega
    · rw [h5, h2, List.filter_filter]
      apply List.filter_congr
      intro x _
      simp only [List.map_cons, List.mem_cons, not_or, bne, Bool.and_comm]
      by_cases hx : x.id = o.id <;> simp [hx]

theorem massCancel_only : ∀ (ids : List Nat) (b q : Nat) (a : RefMarket C), RefInv a → a.seq ≤ 2 ^ 63 →
    b < 2 ^ 64 → q < 2 ^ 64 →
    ∀ {b' q' a'}, RefMarket.massCancelFrom ids b q a = .ok (b', q', a') →
    ∃ os : List (Order C), os.map Order.id = ids ∧ ids.Nodup ∧ (∀ o ∈ os, o ∈ a.all) ∧
      b + (os.map Order.qty).sum < 2 ^ 64 ∧ (os.map Order.value).sum + q < 2 ^ 64 := by
  intro ids
  induction ids with
  | nil =>
    intro b q a _ _ hb hq b' q' a' h
    exact ⟨[], rfl, List.nodup_nil, by simp, by simpa using hb, by simpa using hq⟩
  | cons id ids ih =>
    intro b q a ha hseq hb hq b' q' a' h
    unfold RefMarket.massCancelFrom at h
    cases hc : a.cancel1 id with
    | none => rw [hc] at h; cases h
    | some x =>
      obtain ⟨o, a1⟩ := x
      rw [hc] at h
      simp only at h
      obtain ⟨hoa, hoid⟩ := cancel1_mem hc
      subst hoid
      obtain ⟨a1', h1', h2⟩ := cancel1_some ha hseq hoa
      rw [hc] at h1'
      cases h1'
      split at h
      · rename_i hfit
        obtain ⟨_, hs1, _⟩ := cancel1_params hc
        obtain ⟨os, h3, h4, h5, h6, h7⟩ := ih _ _ a1 (cancel1_inv ha hc) (by omega) hfit.1 hfit.2 h
        have hw : worth .ask o.qty o.price = o.value := rfl
        refine ⟨o :: os, by rw [List.map_cons, h3], ?_, ?_, ?_, ?_⟩
        · rw [List.nodup_cons]
          refine ⟨?_, h4⟩
          rw [← h3]
          intro hin
          obtain ⟨x, hx, hxid⟩ := List.mem_map.1 hin
          have := ((mem_all_of_filter h2).1 (h5 x hx)).2
          rw [bne_iff_ne] at this
          exact this hxid
        · intro x hx
          rcases List.mem_cons.1 hx with rfl | hx
          · exact hoa
          · exact ((mem_all_of_filter h2).1 (h5 x hx)).1
        · rw [List.map_cons, List.sum_cons]; omega
        · rw [List.map_cons, List.sum_cons]; rw [hw] at h7; omega
      · cases h

theorem perm_lift {α β : Type} {f : α → β} {l l' : List β} (h : l.Perm l') :
    ∀ os : List α, os.map f = l → ∃ os', os.Perm os' ∧ os'.map f = l' := by
  induction h with
  | nil => intro os h; exact ⟨os, List.Perm.refl _, h⟩
  | cons x _ ih =>
    intro os h
    obtain ⟨o, os1, rfl, rfl, h2⟩ := List.map_eq_cons_iff.1 h
    obtain ⟨os', h3, h4⟩ := ih os1 h2
    exact ⟨o :: os', h3.cons o, by rw [List.map_cons, h4]⟩
  | swap x y l =>
    intro os h
    obtain ⟨o, os1, rfl, rfl, h2⟩ := List.map_eq_cons_iff.1 h
    obtain ⟨o2, os2, rfl, rfl, rfl⟩ := List.map_eq_cons_iff.1 h2
    exact ⟨o2 :: o :: os2, List.Perm.swap _ _ _, rfl⟩
  | trans _ _ ih1 ih2 =>
    intro os h
    obtain ⟨os1, h1, h2⟩ := ih1 os h
    obtain ⟨os2, h3, h4⟩ := ih2 os1 h2
    exact ⟨os2, h1.trans h3, h4⟩

/-! ### The modelled code -/

variable [CallbackInfo C] {m m' : Market C} {s : OrderSummary}

omit [CallbackInfo C] in
theorem MRep.mem_all {a : RefMarket C} (h : MRep m a) {o : Order C} :
    o ∈ a.all ↔ ∃ side, o ∈ AOB.resting m side := by
  rw [RefMarket.mem_all]
  simp only [h.resting]

/-- C21, C23: cancelling a resting order always succeeds, removes that order only, emits no event, and reports its
remaining base quantity and the floor of its quote value. -/
theorem C21_cancel {c is} (h : ReachBy c is m) (hlen : is.length ≤ 2 ^ 63) {side : Side} {L R : List (Order C)}
    {o : Order C} (ho : resting m side = L ++ o :: R) :
    ∃ m', m.cancelOrder o.id = .ok (⟨none, o.qty, o.qty * o.price / 2 ^ 32, 0⟩, m') ∧
      resting m' side = L ++ R ∧ resting m' side.opposite = resting m side.opposite ∧ pending m' = pending m := by
  obtain ⟨ha, hseq, _⟩ := h.known
  generalize (c.ref : RefMarket C).run is = a at ha hseq
  have hmem : o ∈ a.orders side := by rw [← ha.rep.resting, ho]; simp
  obtain ⟨a', h1, h2⟩ := cancel1_some ha.inv (by omega) (RefMarket.mem_all.2 ⟨side, hmem⟩)
  have hr := cancelOrder_refines ha.rep (fun side o ho => (ha.inv.ok side o ho).worth) o.id
  have h3 : a.cancelOrder o.id = .ok (⟨none, o.qty, o.qty * o.price / 2 ^ 32, 0⟩, a') := by
    unfold RefMarket.cancelOrder; rw [h1]; rfl
  rw [h3] at hr
  obtain ⟨m', h4, h5⟩ := hr
  refine ⟨m', h4, ?_, ?_, ?_⟩
  · rw [h5.resting, h2, ← ha.rep.resting, ho]
    have hs := ha.inv.sorted side
    rw [← ha.rep.resting, ho] at hs
    exact filter_ne_split hs
  · rw [h5.resting, h2, ha.rep.resting, List.filter_eq_self]
    intro x hx
    rw [bne_iff_ne]
    exact Ne.symm (ha.inv.ids_ne hmem hx)
  · rw [h5.pending, ha.rep.pending, (cancel1_params h1).2.2]

omit [CallbackInfo C] in
/-- C08: a cancelled order causes no event, and neither does a mass cancellation. -/
theorem C08_cancel_silent :
    (∀ {id : Nat}, m.cancelOrder id = .ok (s, m') → pending m' = pending m ∧ emitted m m' = []) ∧
    (∀ {ids : List Nat}, m.massCancelOrders ids = .ok (s, m') → pending m' = pending m ∧ emitted m m' = []) := by
  have key : m'.queue = m.queue → pending m' = pending m ∧ emitted m m' = [] := by
    intro hq
    have : pending m' = pending m := by unfold pending Market.events; rw [hq]
    exact ⟨this, by unfold emitted; rw [this]; simp⟩
  refine ⟨fun {id} h => key ?_, fun {ids} h => key ?_⟩
  · unfold Market.cancelOrder at h
    cases h1 : Market.cancelIn m.book id with
    | error e => rw [h1] at h; cases h
    | ok x => rw [h1] at h; cases h; rfl
  · unfold Market.massCancelOrders at h
    cases h1 : Market.massCancelLoop ids 0 0 m.book with
    | error e => rw [h1] at h; cases h
    | ok x => rw [h1] at h; cases h; rfl

/-- C23: cancelling a resting order never fails. -/
theorem C23_cancel_succeeds {c is} (h : ReachBy c is m) (hlen : is.length ≤ 2 ^ 63) {side : Side} {o : Order C}
    (ho : o ∈ resting m side) : ∃ s m', m.cancelOrder o.id = .ok (s, m') := by
  obtain ⟨L, R, hs⟩ := List.append_of_mem ho
  obtain ⟨m', h1, _⟩ := C21_cancel h hlen hs
  exact ⟨_, m', h1⟩

/-- C22: cancelling an id that is not resting never succeeds. The error is `OrderNotFound`, or a panic; the panic
happens only if exactly one order is left on the side the id belongs to. -/
theorem C22_cancel_missing (h : Reachable m) {id : Nat} (hno : ∀ side, ∀ o ∈ resting m side, o.id ≠ id) :
    m.cancelOrder id = .error (.ao .orderNotFound) ∨
    (m.cancelOrder id = .error .panic ∧ (resting m (getSideFromOrderId id)).length = 1) := by
  obtain ⟨a, ha⟩ := h.known
  have hp : PRep _ _ _ := ha.rep.tree (getSideFromOrderId id)
  have hr := SRep.remove_missing hp (key := id) (by
    intro o ho
    rw [mem_prio, ← ha.rep.resting] at ho
    exact hno _ o ho)
  unfold Market.cancelOrder Market.cancelIn
  rcases hr with hr | ⟨h1, h2, hr⟩
  · left
    simp only [hr, ok_bind]
    rfl
  · right
    refine ⟨by simp only [hr]; rfl, ?_⟩
    rw [length_prio] at h1
    rw [ha.rep.resting]
    exact h1

/-- C22: exactly when the panic happens: one order is left on the side, and the first leaf slot still holds the id. -/
theorem C22_panic_iff (h : Reachable m) {id : Nat} (hno : ∀ side, ∀ o ∈ resting m side, o.id ≠ id) :
    m.cancelOrder id = .error .panic ↔ (resting m (getSideFromOrderId id)).length = 1 ∧
      (m.book.getTree (getSideFromOrderId id)).leafNodes[0]?.map LeafNode.key = some id := by
  obtain ⟨a, ha⟩ := h.known
  have hp : PRep _ _ _ := ha.rep.tree (getSideFromOrderId id)
  have hr := SRep.remove_missing_iff hp (key := id) (by
    intro o ho
    rw [mem_prio, ← ha.rep.resting] at ho
    exact hno _ o ho)
  rw [length_prio, ← ha.rep.resting] at hr
  rw [← hr]
  have hr' := SRep.remove_missing hp (key := id) (by
    intro o ho
    rw [mem_prio, ← ha.rep.resting] at ho
    exact hno _ o ho)
  unfold Market.cancelOrder Market.cancelIn
  rcases hr' with hr' | ⟨_, _, hr'⟩
  · simp only [hr', ok_bind]
    exact ⟨fun h => (by cases h), fun h => (by cases h)⟩
  · simp only [hr']
    exact ⟨fun _ => trivial, fun _ => rfl⟩

/-- C24: `mass_cancel_orders` on distinct resting orders succeeds (if the totals fit 64 bits); it removes exactly
those orders, reports the sums of what the single cancellations report, and emits no event. -/
theorem C24_mass_cancel {c is} (h : ReachBy c is m) (hlen : is.length ≤ 2 ^ 63) {ids : List Nat}
    {os : List (Order C)} (hos : Cancellable m ids os) :
    ∃ m', m.massCancelOrders ids = .ok (⟨none, (os.map Order.qty).sum, (os.map Order.value).sum, 0⟩, m') ∧
      (∀ side, resting m' side = (resting m side).filter (fun x => decide (x.id ∉ ids))) ∧ pending m' = pending m := by
  obtain ⟨ha, hseq, _⟩ := h.known
  generalize (c.ref : RefMarket C).run is = a at ha hseq
  obtain ⟨rfl, h2, h3, h4, h5⟩ := hos
  obtain ⟨a', g1, g2, g3⟩ := massCancel_succeeds os 0 0 a ha.inv (by omega) h2
    (fun o ho => ha.rep.mem_all.2 (h3 o ho)) (by omega) (by omega)
  have hr := massCancel_refines (os.map Order.id) ha.rep (fun side o ho => (ha.inv.ok side o ho).worth) 0 0
  rw [g1] at hr
  obtain ⟨book', r1, r2⟩ := hr
  refine ⟨{ m with book := book' }, ?_, fun side => ?_, ?_⟩
  rotate_left
  · exact (r2.resting side).trans (by rw [g3, ha.rep.resting])
  · exact r2.pending.trans (by rw [g2, ha.rep.pending])
  · unfold Market.massCancelOrders
    rw [r1, ok_bind]
    simp

/-- C24: it succeeds only then. -/
theorem C24_only_if {c is} (h : ReachBy c is m) (hlen : is.length ≤ 2 ^ 63) {ids : List Nat}
    (he : m.massCancelOrders ids = .ok (s, m')) : ∃ os, Cancellable m ids os := by
  obtain ⟨ha, hseq, _⟩ := h.known
  generalize (c.ref : RefMarket C).run is = a at ha hseq
  have hr := massCancel_refines ids ha.rep (fun side o ho => (ha.inv.ok side o ho).worth) 0 0
  unfold Market.massCancelOrders at he
  cases hx : RefMarket.massCancelFrom ids 0 0 a with
  | error e =>
    rw [hx] at hr
    rcases hr with hr | ⟨_, hr⟩ <;> rw [hr] at he <;> cases he
  | ok x =>
    obtain ⟨b', q', a'⟩ := x
    obtain ⟨os, h1, h2, h3, h4, h5⟩ := massCancel_only ids 0 0 a ha.inv (by omega) (by omega) (by omega) hx
    exact ⟨os, h1, h2, fun o ho => ha.rep.mem_all.1 (h3 o ho), by omega, by omega⟩

/-- C24: the order in which the ids are given does not matter: same totals, same book. -/
theorem C24_order_irrelevant {c is} (h : ReachBy c is m) (hlen : is.length ≤ 2 ^ 63) {ids ids' : List Nat}
    (hperm : ids.Perm ids') (he : m.massCancelOrders ids = .ok (s, m')) :
    ∃ m'', m.massCancelOrders ids' = .ok (s, m'') ∧ SameLook m' m'' := by
  obtain ⟨os, hos⟩ := C24_only_if h hlen he
  obtain ⟨m1, h1, h2, h3⟩ := C24_mass_cancel h hlen hos
  rw [h1] at he
  cases he
  obtain ⟨os', hp, rfl⟩ : ∃ os', os.Perm os' ∧ os'.map Order.id = ids' := by
    exact perm_lift hperm os hos.ids_eq
  obtain ⟨m2, g1, g2, g3⟩ := C24_mass_cancel h hlen (ids := os'.map Order.id) (os := os')
    ⟨rfl, hperm.nodup_iff.1 hos.nodup, fun o ho => hos.rests o (hp.mem_iff.2 ho),
      by rw [← (hp.map Order.qty).sum_nat]; exact hos.base, by rw [← (hp.map Order.value).sum_nat]; exact hos.quote⟩
  refine ⟨m2, ?_, fun side => ?_, by rw [h3, g3]⟩
  · rw [g1, (hp.map Order.qty).sum_nat, (hp.map Order.value).sum_nat]
  · rw [h2, g2]
    apply List.filter_congr
    intro x _
    simp only [hperm.mem_iff]

theorem ReachBy.cancel_step {c is} (h : ReachBy c is m) (hlen : is.length ≤ 2 ^ 63) {o : Order C}
    (ho : ∃ side, o ∈ resting m side) : ReachBy c (is ++ [.cancelOrder o.id]) (m.step (.cancelOrder o.id)) ∧
      (∀ side, resting (m.step (.cancelOrder o.id)) side = (resting m side).filter (fun x => x.id != o.id)) ∧
      pending (m.step (.cancelOrder o.id)) = pending m := by
  obtain ⟨ha, hseq, _⟩ := h.known
  generalize (c.ref : RefMarket C).run is = a at ha hseq
  have hmem := ha.rep.mem_all.2 ho
  have hid : o.id < 2 ^ 128 := by
    obtain ⟨side, hs⟩ := ho
    rw [ha.rep.resting] at hs
    exact SRep.id_lt (ha.rep.tree side) o (mem_prio.2 hs)
  obtain ⟨a', h1, h2⟩ := cancel1_some ha.inv (by omega) hmem
  have h3 : a.step (.cancelOrder o.id) = a' := by
    unfold RefMarket.step RefMarket.exec RefMarket.cancelOrder
    simp only [h1]
    rfl
  obtain ⟨r1, r2⟩ := step_refines ha.rep ha.inv (i := .cancelOrder o.id) hid
  rw [h3] at r1
  refine ⟨h.step (i := .cancelOrder o.id) hid, fun side => ?_, ?_⟩
  · rw [r1.resting, h2, ha.rep.resting]
  · rw [r1.pending, ha.rep.pending, (cancel1_params h1).2.2]

theorem run_cancels : ∀ (os : List (Order C)) {c : Config} {is : List (Instr C)} {m : Market C}, ReachBy c is m →
    is.length + os.length ≤ 2 ^ 63 → (os.map Order.id).Nodup → (∀ o ∈ os, ∃ side, o ∈ resting m side) →
    (∀ side, resting (m.run (os.map (fun o => .cancelOrder o.id))) side =
      (resting m side).filter (fun x => decide (x.id ∉ os.map Order.id))) ∧
    pending (m.run (os.map (fun o => .cancelOrder o.id))) = pending m := by
  intro os
  induction os with
  | nil =>
    intro c is m h _ _ _
    refine ⟨fun side => ?_, rfl⟩
    show resting m side = _
    symm
    rw [List.filter_eq_self]
    simp
  | cons o os ih =>
    intro c is m h hlen hnd hmem
    rw [List.map_cons, List.nodup_cons] at hnd
    rw [List.length_cons] at hlen
    obtain ⟨h1, h2, h3⟩ := h.cancel_step (by omega) (hmem o (by simp))
    obtain ⟨h4, h5⟩ := ih h1 (by rw [List.length_append, List.length_singleton]; omega) hnd.2 (by
      intro x hx
      obtain ⟨side, hs⟩ := hmem x (List.mem_cons_of_mem _ hx)
      refine ⟨side, ?_⟩
      rw [h2, List.mem_filter]
      refine ⟨hs, ?_⟩
      rw [bne_iff_ne]
      intro hid
      exact hnd.1 (hid ▸ List.mem_map_of_mem hx))
    have hrun : m.run ((o :: os).map (fun o => .cancelOrder o.id)) =
        (m.step (.cancelOrder o.id)).run (os.map (fun o => .cancelOrder o.id)) := rfl
    rw [hrun]
    refine ⟨fun side => ?_, h5.trans h3⟩
    rw [h4, h2, List.filter_filter]
    apply List.filter_congr
    intro x _
    by_cases hx : x.id = o.id <;> simp [hx]

/-- C24: the effect is that of cancelling the ids one by one. -/
theorem C24_as_single_cancels {c is} (h : ReachBy c is m) {ids : List Nat} (hlen : is.length + ids.length ≤ 2 ^ 63)
    (he : m.massCancelOrders ids = .ok (s, m')) : SameLook m' (m.run (ids.map Instr.cancelOrder)) := by
  obtain ⟨os, hos⟩ := C24_only_if h (by omega) he
  obtain ⟨m1, h1, h2, h3⟩ := C24_mass_cancel h (by omega) hos
  rw [h1] at he
  cases he
  have hids := hos.ids_eq
  have hl : os.length = ids.length := by rw [← hids, List.length_map]
  obtain ⟨g1, g2⟩ := run_cancels os h (by omega) (by rw [hids]; exact hos.nodup) hos.rests
  have hmap : ids.map Instr.cancelOrder = os.map (fun o => (.cancelOrder o.id : Instr C)) := by
    rw [← hids, List.map_map]; rfl
  rw [hmap]
  refine ⟨fun side => ?_, by rw [h3, g2]⟩
  rw [h2, g1, hids]

/-- C22, C24: a failing `mass_cancel_orders` (an id missing or twice, or totals that do not fit) changes nothing. -/
theorem C24_all_or_nothing {c is} (h : ReachBy c is m) (hlen : is.length ≤ 2 ^ 63) {ids : List Nat}
    (hno : ¬ ∃ os, Cancellable m ids os) :
    (∃ e, m.massCancelOrders ids = .error e) ∧ SameLook (m.step (.massCancelOrders ids)) m := by
  cases he : m.massCancelOrders ids with
  | ok x => exact absurd (C24_only_if h hlen he) hno
  | error e =>
    refine ⟨⟨e, rfl⟩, ?_⟩
    have : m.exec (.massCancelOrders ids) = .error e := by
      unfold Market.exec
      simp only [he]
      rfl
    obtain ⟨h1, h2, _⟩ := C20_failed_step this
    exact ⟨h1, h2⟩

/-! ### Examples -/

/-- Bids of users 4 and 6 and the ask of user 2. -/
def demoIds : List Nat :=
  [9 * 2 ^ 96 + (2 ^ 64 - 1 - 3), 11 * 2 ^ 96 + 1, 9 * 2 ^ 96 + (2 ^ 64 - 1 - 5)]

example : (demo.massCancelOrders demoIds).map (fun x => x.1) = .ok ⟨none, 18, 174, 0⟩ := by decide +kernel

example : ∃ os, Cancellable demo demoIds os := by
  have : ∃ s m', demo.massCancelOrders demoIds = .ok (s, m') := by
    cases h : demo.massCancelOrders demoIds with
    | ok x => exact ⟨x.1, x.2, rfl⟩
    | error e =>
      have h2 : (demo.massCancelOrders demoIds).map (fun x => x.1) = .ok ⟨none, 18, 174, 0⟩ := by decide +kernel
      rw [h] at h2; cases h2
  obtain ⟨s, m', h⟩ := this
  exact C24_only_if demo_reachBy (by decide) h

example := C21_cancel demo_reachBy (by decide) demo_asks
/-- C08: the cancellation of the best ask of the demo. -/
example : ∃ m', pending m' = pending demo ∧ emitted demo m' = [] := by
  obtain ⟨m', h, _⟩ := C21_cancel demo_reachBy (by decide) demo_asks
  exact ⟨m', C08_cancel_silent.1 h⟩

/-- C22, the documented error is not always returned: two bids are posted, the first is cancelled, and cancelling
it a second time panics (`remove_by_key` reads the stale key of slot 0, `critbit.rs`). -/
def staleHist : List (Instr DemoCb) :=
  [.newOrder (demoOrder .bid 5 10 1), .newOrder (demoOrder .bid 6 10 2), .cancelOrder (10 * 2 ^ 96 + (2 ^ 64 - 1))]

theorem C22_panic_witness :
    ∃ m : Market DemoCb, ReachBy demoCfg staleHist m ∧ (∀ side, ∀ o ∈ resting m side, o.id ≠ 10 * 2 ^ 96 + (2 ^ 64 - 1)) ∧
      m.cancelOrder (10 * 2 ^ 96 + (2 ^ 64 - 1)) = .error .panic := by
  refine ⟨(demoCfg.market ⟨0, 0⟩).run staleHist, ⟨demo_valid, by decide +kernel, ⟨0, 0⟩, rfl⟩, ?_, by decide +kernel⟩
  intro side
  cases side <;> decide +kernel

example : ((demoCfg.market ⟨0, 0⟩).run staleHist).cancelOrder (10 * 2 ^ 96 + (2 ^ 64 - 1)) = .error .panic :=
  (C22_panic_iff ⟨demoCfg, staleHist, demo_valid, by decide +kernel, ⟨0, 0⟩, rfl⟩
    (by intro side; cases side <;> decide +kernel)).2 (by decide +kernel)

/-- `C22_cancel_missing`: an id that is nobody's. -/
example := C22_cancel_missing demo_reachable (id := 10 * 2 ^ 96 + 77) (by intro side; cases side <;> decide +kernel)
/-- `C23_cancel_succeeds`: the best ask of the demo. -/
example := C23_cancel_succeeds demo_reachBy (by decide) (List.mem_of_mem_head? (l := resting demo .ask) (by rw [demo_asks]; rfl))

/-- `C24_mass_cancel`, `C24_as_single_cancels`, `C24_order_irrelevant`: the three orders named by `demoIds`. -/
theorem demoIds_cancelled : ∃ s m', demo.massCancelOrders demoIds = .ok (s, m') := by
  cases h : demo.massCancelOrders demoIds with
  | ok x => exact ⟨x.1, x.2, rfl⟩
  | error e =>
    have h2 : (demo.massCancelOrders demoIds).map (fun x => x.1) = .ok ⟨none, 18, 174, 0⟩ := by decide +kernel
    rw [h] at h2; cases h2

example : ∃ (os : List (Order DemoCb)) (m' : _), demo.massCancelOrders demoIds =
    .ok (⟨none, (os.map Order.qty).sum, (os.map Order.value).sum, 0⟩, m') := by
  obtain ⟨s, m', h⟩ := demoIds_cancelled
  obtain ⟨os, hos⟩ := C24_only_if demo_reachBy (by decide) h
  obtain ⟨m'', h1, _⟩ := C24_mass_cancel demo_reachBy (by decide) hos
  exact ⟨os, m'', h1⟩

example : ∃ m', SameLook m' (demo.run (demoIds.map Instr.cancelOrder)) := by
  obtain ⟨s, m', h⟩ := demoIds_cancelled
  exact ⟨m', C24_as_single_cancels demo_reachBy (by decide) h⟩

example : ∃ s m', demo.massCancelOrders demoIds.reverse = .ok (s, m') := by
  obtain ⟨s, m', h⟩ := demoIds_cancelled
  obtain ⟨m'', h1, _⟩ := C24_order_irrelevant demo_reachBy (by decide) (List.reverse_perm demoIds).symm h
  exact ⟨s, m'', h1⟩

/-- `C24_all_or_nothing`: one of the ids is given twice. -/
example := C24_all_or_nothing demo_reachBy (by decide) (ids := demoIds ++ demoIds.take 1)
  (fun ⟨_, h⟩ => absurd h.nodup (by decide))

end AOB
