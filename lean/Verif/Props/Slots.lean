import Verif.Proofs.Slots
import Verif.Props.Place
/-
C110: an order keeps its slot.
-/
namespace AOB
variable {C : Type} [CallbackInfo C] {m m' : Market C} {p : NewOrderParams C} {s : OrderSummary}
  {c : Config} {is : List (Instr C)}

/-! ### Ids and sequence numbers, bounded by the ids given out and not by the transactions -/

theorem seq_resting (h : ReachBy c is m) (hs : m.queue.header.seqNum ≤ 2 ^ 63) {side : Side} {o : Order C}
    (ho : o ∈ resting m side) : o.id < 2 ^ 128 ∧ seqOfId o.id < m.queue.header.seqNum := by
  obtain ⟨hk, _, _⟩ := h.known
  rw [hk.rep.resting] at ho
  obtain ⟨n, hn, en⟩ := (hk.inv.ok side o ho).id
  refine ⟨(hk.rep.tree side).id_lt o ho, ?_⟩
  rw [hk.seqNum] at hs ⊢
  rw [en, seqOfId_mk (by omega)]
  exact hn

theorem run_seq : ∀ {js : List (Instr C)} {is : List (Instr C)} {m : Market C} {c : Config}, ReachBy c is m →
    (∀ i ∈ js, i.Ok) → m.queue.header.seqNum ≤ (m.run js).queue.header.seqNum
  | [], _, _, _, _, _ => Nat.le_refl _
  | i :: js, _, _, _, h, hj =>
    Nat.le_trans (step_seq h (hj i (by simp))) (run_seq (js := js) (h.step (hj i (by simp))) (fun j hj' => hj j (by simp [hj'])))

omit [CallbackInfo C] in
theorem cancel1_sub {a a' : RefMarket C} {id : Nat} {o : Order C} (h : a.cancel1 id = some (o, a')) (side : Side)
    {x : Order C} (hx : x ∈ a'.orders side) : x ∈ a.orders side := by
  unfold RefMarket.cancel1 at h
  split at h
  · cases h
  · obtain ⟨_, rfl⟩ := Prod.mk.inj (Option.some.inj h)
    generalize sideOfId id = sd at hx
    cases sd <;> cases side <;> first | exact (List.mem_filter.1 hx).1 | exact hx

omit [CallbackInfo C] in
theorem massCancelFrom_sub {ids : List Nat} (side : Side) {x : Order C} : ∀ {a a' : RefMarket C} {b q b' q' : Nat},
    a.massCancelFrom ids b q = .ok (b', q', a') → x ∈ a'.orders side → x ∈ a.orders side := by
  induction ids with
  | nil =>
    intro a a' b q b' q' h hx
    obtain ⟨_, e⟩ := Prod.mk.inj (Except.ok.inj h)
    obtain ⟨_, rfl⟩ := Prod.mk.inj e
    exact hx
  | cons id ids ih =>
    intro a a' b q b' q' h hx
    unfold RefMarket.massCancelFrom at h
    split at h
    · cases h
    · rename_i o a1 hc
      split at h
      · exact cancel1_sub hc side (ih h hx)
      · cases h

/-- What rests after a transaction other than a new order rested before it. -/
theorem step_sub {a : RefMarket C} {i : Instr C} (hno : ∀ p, i ≠ .newOrder p) (side : Side) {x : Order C}
    (hx : x ∈ (a.step i).orders side) : x ∈ a.orders side := by
  unfold RefMarket.step at hx
  cases he : a.exec i with
  | error e => rw [he] at hx; exact hx
  | ok r =>
    obtain ⟨r, a'⟩ := r
    rw [he] at hx
    cases i with
    | newOrder p => exact absurd rfl (hno p)
    | cancelOrder id =>
      obtain ⟨⟨s, a1⟩, h1, h2⟩ := bind_ok he
      obtain ⟨rfl, rfl⟩ := Prod.mk.inj (Except.ok.inj h2)
      unfold RefMarket.cancelOrder at h1
      split at h1
      · cases h1
      · rename_i o a2 hc
        obtain ⟨_, rfl⟩ := Prod.mk.inj (Except.ok.inj h1)
        exact cancel1_sub hc side hx
    | massCancelOrders ids =>
      obtain ⟨⟨s, a1⟩, h1, h2⟩ := bind_ok he
      obtain ⟨rfl, rfl⟩ := Prod.mk.inj (Except.ok.inj h2)
      unfold RefMarket.massCancelOrders at h1
      split at h1
      · cases h1
      · rename_i b q a2 h3
        obtain ⟨_, rfl⟩ := Prod.mk.inj (Except.ok.inj h1)
        exact massCancelFrom_sub side h3 hx
    | consumeEvents n =>
      obtain ⟨rfl, rfl⟩ := Prod.mk.inj (Except.ok.inj he)
      exact hx

/-- What rests after one transaction rested before it with the same callback information and no less quantity, or its number is new. -/
theorem step_came (h : ReachBy c is m) {i : Instr C} (hi : i.Ok) (hs : (m.step i).queue.header.seqNum ≤ 2 ^ 63)
    (side : Side) {x : Order C} (hx : x ∈ resting (m.step i) side) :
    (∃ y ∈ resting m side, y.id = x.id ∧ y.cb = x.cb ∧ x.qty ≤ y.qty) ∨ m.queue.header.seqNum ≤ seqOfId x.id := by
  by_cases hno : ∀ p, i ≠ .newOrder p
  · left
    rw [(h.step hi).known.1.rep.resting, show (c.ref : RefMarket C).run (is ++ [i]) = ((c.ref : RefMarket C).run is).step i by
      simp only [RefMarket.run, List.foldl_append, List.foldl_cons, List.foldl_nil]] at hx
    have := step_sub hno side hx
    rw [← h.known.1.rep.resting] at this
    exact ⟨x, this, rfl, rfl, Nat.le_refl _⟩
  · push Not at hno
    obtain ⟨p, rfl⟩ := hno
    cases he : m.newOrder p with
    | error e =>
      have : m.step (.newOrder p) = m := by simp only [Market.step, Market.exec, he]; rfl
      rw [this] at hx
      exact .inl ⟨x, hx, rfl, rfl, Nat.le_refl _⟩
    | ok r =>
      obtain ⟨s, m'⟩ := r
      have h1 : m.step (.newOrder p) = m' := by simp only [Market.step, Market.exec, he, ok_bind]
      rw [h1] at hx hs
      rcases C48_nothing_appears h.reachable hi he side hx with ⟨y, hy, e1, e2, e3⟩ | ⟨_, e2, _⟩
      · exact .inl ⟨y, hy, e1, e2, by omega⟩
      · right
        obtain ⟨e1, e3, _⟩ := posted_id h hi he e2
        rw [e1, seqOfId_mk (by omega)]

theorem run_came (side : Side) {x : Order C} : ∀ {js : List (Instr C)} {is : List (Instr C)} {m : Market C} {c : Config},
    ReachBy c is m → (∀ i ∈ js, i.Ok) → (m.run js).queue.header.seqNum ≤ 2 ^ 63 → x ∈ resting (m.run js) side →
    (∃ y ∈ resting m side, y.id = x.id ∧ y.cb = x.cb ∧ x.qty ≤ y.qty) ∨ m.queue.header.seqNum ≤ seqOfId x.id := by
  intro js
  induction js with
  | nil => intro is m c _ _ _ hx; exact .inl ⟨x, hx, rfl, rfl, Nat.le_refl _⟩
  | cons i js ih =>
    intro is m c h hj hs hx
    have hi : i.Ok := hj i (by simp)
    have hj' : ∀ j ∈ js, j.Ok := fun j hj' => hj j (List.mem_cons_of_mem _ hj')
    have hseq := step_seq h hi
    have hseq' : (m.step i).queue.header.seqNum ≤ ((m.step i).run js).queue.header.seqNum := run_seq (h.step hi) hj'
    have hs' : ((m.step i).run js).queue.header.seqNum ≤ 2 ^ 63 := hs
    rcases ih (h.step hi) hj' hs hx with ⟨y, hy, e1, e2, e3⟩ | hn
    · rcases step_came h hi (Nat.le_trans hseq' hs') side hy with ⟨z, hz, f1, f2, f3⟩ | hn
      · exact .inl ⟨z, hz, f1.trans e1, f2.trans e2, Nat.le_trans e3 f3⟩
      · right; rw [← e1]; exact hn
    · right; omega

/-- An id already given out that is in a slot after some transactions was in the same slot before them. -/
theorem run_was (side : Side) {x k : Nat} : ∀ {js : List (Instr C)} {is : List (Instr C)} {m : Market C} {c : Config},
    ReachBy c is m → (∀ i ∈ js, i.Ok) → (m.run js).queue.header.seqNum ≤ 2 ^ 63 → seqOfId x < m.queue.header.seqNum →
    k < ((m.run js).book.getTree side).header.leafBumpIndex →
    (((m.run js).book.getTree side).leafNodes.map LeafNode.key)[k]? = some x →
    k < (m.book.getTree side).header.leafBumpIndex ∧ ((m.book.getTree side).leafNodes.map LeafNode.key)[k]? = some x := by
  intro js
  induction js with
  | nil => intro is m c _ _ _ _ hk hx; exact ⟨hk, hx⟩
  | cons i js ih =>
    intro is m c h hj hl hs hk hx
    have hi : i.Ok := hj i (by simp)
    have hj' : ∀ j ∈ js, j.Ok := fun j hj' => hj j (List.mem_cons_of_mem _ hj')
    have hseq := step_seq h hi
    have hseq' : (m.step i).queue.header.seqNum ≤ ((m.step i).run js).queue.header.seqNum := run_seq (h.step hi) hj'
    have hl' : ((m.step i).run js).queue.header.seqNum ≤ 2 ^ 63 := hl
    obtain ⟨h1, h2⟩ := ih (h.step hi) hj' hl (by omega) hk hx
    rcases step_writes m i side with hm | ⟨y, ⟨p, s, m', rfl, he, hid⟩, hw⟩
    · rw [hm.1] at h1
      rw [hm.2] at h2
      exact ⟨h1, h2⟩
    · refine hw.was h1 h2 ?_
      rintro rfl
      obtain ⟨e1, e2, _⟩ := posted_id h hi he hid
      have e3 : m.step (.newOrder p) = m' := by simp only [Market.step, Market.exec, he, ok_bind]
      rw [e3] at hseq' hl'
      rw [e1, seqOfId_mk (by omega)] at hs
      omega

/-- C110: the id of an order is in at most one of the slots used so far, also after the order has left the book. -/
theorem C110_once (h : ReachBy c is m) (hs : m.queue.header.seqNum ≤ 2 ^ 63) {side : Side} {i j : Nat} {l l' : LeafNode}
    (hi : i < (m.book.getTree side).header.leafBumpIndex) (hj : j < (m.book.getTree side).header.leafBumpIndex)
    (hl : (m.book.getTree side).leafNodes[i]? = some l) (hl' : (m.book.getTree side).leafNodes[j]? = some l')
    (he : l.key = l'.key) : i = j := by
  have key : (m.book.getTree side).Distinct ∧ (m.book.getTree side).Marked (fun k => seqOfId k < m.queue.header.seqNum) := by
    clear hi hj hl hl' he
    obtain ⟨hv, hok, c0, rfl⟩ := h
    induction is using List.reverseRecOn with
    | nil =>
      exact ⟨fun i hi => by cases side <;> exact absurd hi (Nat.not_lt_zero i),
        fun i hi => by cases side <;> exact absurd hi (Nat.not_lt_zero i)⟩
    | append_singleton is j ih =>
      have hr : ReachBy c is ((c.market c0).run is) := ⟨hv, fun i hi => hok i (by simp [hi]), c0, rfl⟩
      have hjo : j.Ok := hok j (by simp)
      rw [show (c.market c0).run (is ++ [j]) = ((c.market c0).run is).step j by simp [Market.run]] at hs ⊢
      have hseq := step_seq hr hjo
      obtain ⟨hd, hm⟩ := ih (fun i hi => hok i (by simp [hi])) (by omega)
      generalize (c.market c0).run is = m at *
      rcases step_writes m j side with hsm | ⟨y, ⟨p, s, m', rfl, he, hid⟩, hw⟩
      · exact ⟨hsm.distinct hd, (hsm.marked hm).mono fun k hk => by omega⟩
      · obtain ⟨e1, e2, _⟩ := posted_id hr hjo he hid
        have e3 : m.step (.newOrder p) = m' := by simp only [Market.step, Market.exec, he, ok_bind]
        rw [e3] at hs hw ⊢
        have hy : seqOfId y = m.queue.header.seqNum := by rw [e1, seqOfId_mk (by omega)]
        refine ⟨hw.distinct hd (hm.mono fun k hk => ?_), fun i hi l hl => ?_⟩
        · rintro rfl; omega
        · by_cases hly : l.key = y
          · rw [hly]; omega
          · obtain ⟨w1, w2⟩ := hw.was hi (x := l.key) (by rw [List.getElem?_map, hl]; rfl) hly
            rw [List.getElem?_map] at w2
            obtain ⟨l2, hl2, e⟩ := Option.map_eq_some_iff.1 w2
            have := hm i w1 l2 hl2
            rw [e] at this
            show seqOfId l.key < _
            omega
  refine key.1 i hi j hj l.key ?_ ?_
  · rw [List.getElem?_map, hl]; rfl
  · rw [List.getElem?_map, hl', he]; rfl

/-- C110: an order that rests before and after any transactions is in the same slot, where `find_by_key` finds it both
times, with its id, what is left of it, and the same callback information. -/
theorem C110_keeps_its_slot (h : ReachBy c is m) {js : List (Instr C)} (hj : ∀ i ∈ js, i.Ok)
    (hs : (m.run js).queue.header.seqNum ≤ 2 ^ 63) {side : Side} {o o' : Order C} (ho : o ∈ resting m side)
    (ho' : o' ∈ resting (m.run js) side) (hid : o'.id = o.id) :
    ∃ k, (m.book.getTree side).findByKey o.id = .ok (some k) ∧
      ((m.run js).book.getTree side).findByKey o.id = .ok (some k) ∧
      (m.book.getTree side).leafNodes[k]? = some ⟨o.id, o.qty⟩ ∧ (m.book.getTree side).callbackInfos[k]? = some o.cb ∧
      ((m.run js).book.getTree side).leafNodes[k]? = some ⟨o.id, o'.qty⟩ ∧
      ((m.run js).book.getTree side).callbackInfos[k]? = some o.cb := by
  have h' : ReachBy c (is ++ js) (m.run js) := h.append hj
  have hs0 : m.queue.header.seqNum ≤ 2 ^ 63 := Nat.le_trans (run_seq h hj) hs
  obtain ⟨hlt, hseq⟩ := seq_resting h hs0 ho
  have slot : ∀ {n : Market C} {a : RefMarket C} (hk : Known n a) {x : Order C} (hx : x ∈ resting n side)
      (hlt : x.id < 2 ^ 128), _ := fun {n a} hk {x} hx hlt =>
    SRep.slot (hk.rep.tree side) (o := x) (by
      rw [hk.rep.resting] at hx
      cases side
      · exact List.mem_reverse.2 hx
      · exact hx) hlt
  obtain ⟨k, f1, f2, f3, f4⟩ := slot h.known.1 ho hlt
  obtain ⟨k', g1, g2, g3, g4⟩ := slot h'.known.1 ho' (hid ▸ hlt)
  have hcb : o'.cb = o.cb := by
    rcases run_came side h hj hs ho' with ⟨y, hy, e1, e2, _⟩ | hn
    · have hd := h.known.1.inv.nodup side
      rw [← h.known.1.rep.resting] at hd
      rw [← e2, List.inj_on_of_nodup_map hd hy ho (e1.trans hid)]
    · rw [hid] at hn; omega
  rw [hid] at g1 g3
  obtain ⟨w1, w2⟩ := run_was side (x := o.id) (k := k') h hj hs hseq g2 (by rw [List.getElem?_map, g3]; rfl)
  rw [List.getElem?_map] at w2
  obtain ⟨l, hl, el⟩ := Option.map_eq_some_iff.1 w2
  obtain rfl := C110_once h hs0 f2 w1 f3 hl el.symm
  rw [hcb] at g4
  exact ⟨k, f1, g1, f3, f4, g3, g4⟩

/-- C110: two orders of a side are in different slots. -/
theorem C110_own_slot (h : ReachBy c is m) (hs : m.queue.header.seqNum ≤ 2 ^ 63) {side : Side} {o x : Order C}
    (ho : o ∈ resting m side) (hx : x ∈ resting m side) {k : Nat}
    (hk : (m.book.getTree side).findByKey o.id = .ok (some k)) (hk' : (m.book.getTree side).findByKey x.id = .ok (some k)) :
    x = o := by
  obtain ⟨i, f1, _, f3, _⟩ := C110_keeps_its_slot h (js := []) (by simp) hs ho ho rfl
  obtain ⟨j, g1, _, g3, _⟩ := C110_keeps_its_slot h (js := []) (by simp) hs hx hx rfl
  rw [hk] at f1
  rw [hk'] at g1
  obtain rfl := Option.some.inj (Except.ok.inj f1)
  obtain rfl := Option.some.inj (Except.ok.inj g1)
  rw [f3] at g3
  injection Option.some.inj g3 with e _
  have hn := h.known.1.inv.nodup side
  rw [← h.known.1.rep.resting] at hn
  exact List.inj_on_of_nodup_map hn hx ho e.symm

/-! ### Cases that meet the hypotheses -/

example := C110_keeps_its_slot demo_reachBy (js := demoPlaces) (side := .ask) (o := demoWaiting) (o' := demoWaiting)
  (by decide +kernel) (by decide +kernel) (by decide +kernel) (by decide +kernel) rfl
example : (demo.book.getTree .ask).findByKey demoWaiting.id = .ok (some 2) ∧
    ((demo.run demoPlaces).book.getTree .ask).findByKey demoWaiting.id = .ok (some 2) := by decide +kernel
example : ((demo.run demoPlaces).book.getTree .ask).leafNodes.map LeafNode.key ≠
    (demo.book.getTree .ask).leafNodes.map LeafNode.key := by decide +kernel
example := C110_own_slot demo_reachBy (by decide +kernel) (side := .ask) (o := demoWaiting) (x := demoWaiting) (k := 2)
  (by decide +kernel) (by decide +kernel) (by decide +kernel) (by decide +kernel)
example : (resting demo .ask).map (fun o => ((demo.book.getTree .ask).findByKey o.id).toOption) =
    [some (some 0), some (some 2), some (some 1)] := by decide +kernel
/-- The slot of a cancelled order still holds its id until the slot is used again. -/
example : ((demo.step (.cancelOrder demoWaiting.id)).book.getTree .ask).leafNodes[2]?.map LeafNode.key = some demoWaiting.id ∧
    ((demo.step (.cancelOrder demoWaiting.id)).book.getTree .ask).findByKey demoWaiting.id = .ok none := by decide +kernel
example := C110_once demo_reachBy (by decide +kernel) (side := .ask) (i := 2) (j := 2) (l := ⟨demoWaiting.id, 7⟩) (l' := ⟨demoWaiting.id, 7⟩)
  (by decide +kernel) (by decide +kernel) (by decide +kernel) (by decide +kernel) rfl

end AOB
