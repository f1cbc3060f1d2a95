import Verif.Proofs.RefInv
/-
Posting refines the reference engine.
-/
namespace AOB
variable {C : Type}

/-- The modelled market `m` represents the reference market `a`. -/
structure MRep (m : Market C) (a : RefMarket C) : Prop where
  minBase : m.minBaseOrderSize = a.minBase
  tick : m.tickSize = a.tick
  tree : ∀ side, PRep side (m.book.getTree side) (a.orders side)
  cap : ∀ side, (m.book.getTree side).leafNodes.length = a.cap side
  queue : QRep m.queue a.events
  capEvents : m.queue.events.length = a.capEvents
  seq : m.queue.header.seqNum = a.seq

theorem PRep.sorted {side : Side} {s : Slab C} {l} (hp : PRep side s l) : l.Pairwise side.before := by
  have := SRep.sorted hp
  cases side with
  | bid =>
    simp only [prio, List.pairwise_reverse] at this
    exact this
  | ask => exact this

theorem PRep.length_le {side : Side} {s : Slab C} {l} (hp : PRep side s l) :
    l.length ≤ s.leafNodes.length := by
  have := SRep.length_le hp
  rwa [length_prio] at this

theorem PRep.cap_pos {side : Side} {s : Slab C} {l} (hp : PRep side s l) : 0 < s.leafNodes.length := by
  obtain ⟨es, ⟨ot, hr, rfl⟩, h⟩ := hp
  have := hr.lens
  omega

/-- Insertion of a new order at its rank. -/
theorem PRep.insert {side : Side} {s : Slab C} {L R : List (Order C)} {id qty : Nat}
    (hp : PRep side s (L ++ R)) (hid : id < 2 ^ 128)
    (hL : ∀ x ∈ L, match side with | .bid => id < x.id | .ask => x.id < id)
    (hR : ∀ x ∈ R, match side with | .bid => x.id < id | .ask => id < x.id)
    (hroom : (L ++ R).length < s.leafNodes.length) :
    ∃ h s', s.insertLeaf ⟨id, qty⟩ = .ok ((h, none), s') ∧ SameSize s s' ∧
      ∀ c, ∃ s'', s'.setCallbackInfo h c = .ok s'' ∧ PRep side s'' (L ++ ⟨id, qty, c⟩ :: R) ∧
        SameSize s s'' := by
  have hne : ∀ o ∈ prio side (L ++ R), o.id ≠ id := by
    intro o ho
    rw [mem_prio, List.mem_append] at ho
    rcases ho with ho | ho
    · have := hL o ho; cases side <;> simp only at this <;> omega
    · have := hR o ho; cases side <;> simp only at this <;> omega
  obtain ⟨h, s', c, L', R', h1, h2, h3, h4, h5, h6⟩ := SRep.insert_new (qty := qty) hp hid hne
    (by rwa [length_prio])
  refine ⟨h, s', h1, h6, ?_⟩
  intro c'
  obtain ⟨s'', g1, g2, g3⟩ := h2.setCb c'
  refine ⟨s'', g1, ?_, h6.trans g3⟩
  have hsplit : ∀ {A B A' B' : List (Order C)}, A ++ B = A' ++ B' → (∀ x ∈ A, x.id < id) →
      (∀ x ∈ B, id < x.id) → (∀ x ∈ A', x.id < id) → (∀ x ∈ B', id < x.id) → A = A' ∧ B = B' := by
    intro A
    induction A with
    | nil =>
      intro B A' B' h hA hB hA' hB'
      cases A' with
      | nil => exact ⟨rfl, by simpa using h⟩
      | cons x A' =>
        simp only [List.nil_append, List.cons_append] at h
        have h1 := hB x (by rw [h]; simp)
        have h2 := hA' x (by simp)
        omega
    | cons y A ih =>
      intro B A' B' h hA hB hA' hB'
      cases A' with
      | nil =>
        simp only [List.nil_append, List.cons_append] at h
        have h1 := hB' y (by rw [← h]; simp)
        have h2 := hA y (by simp)
        omega
      | cons x A' =>
        simp only [List.cons_append, List.cons.injEq] at h
        obtain ⟨rfl, h⟩ := h
        obtain ⟨r1, r2⟩ := ih h (fun z hz => hA z (List.mem_cons_of_mem _ hz)) hB
          (fun z hz => hA' z (List.mem_cons_of_mem _ hz)) hB'
        exact ⟨by rw [r1], r2⟩
  have hrep := g2.rep
  cases side with
  | bid =>
    simp only [prio, List.reverse_append] at h3
    obtain ⟨rfl, rfl⟩ := hsplit h3 (fun x hx => hR x (List.mem_reverse.1 hx))
      (fun x hx => hL x (List.mem_reverse.1 hx)) h4 h5
    simpa [PRep, prio] using hrep
  | ask =>
    simp only [prio] at h3
    obtain ⟨rfl, rfl⟩ := hsplit h3 hL hR h4 h5
    simpa [PRep, prio] using hrep

theorem PRep.removeAny {side : Side} {s : Slab C} {L R : List (Order C)} {o : Order C}
    (hp : PRep side s (L ++ o :: R)) :
    ∃ s', s.removeByKey o.id = .ok (some (⟨o.id, o.qty⟩, o.cb), s') ∧ PRep side s' (L ++ R) ∧
      SameSize s s' := by
  cases side with
  | bid =>
    have hp' : SRep s (R.reverse ++ o :: L.reverse) := by simpa [PRep, prio] using hp
    obtain ⟨s', h1, h2, h3⟩ := hp'.remove
    exact ⟨s', h1, by simpa [PRep, prio] using h2, h3⟩
  | ask =>
    have hp' : SRep s (L ++ o :: R) := by simpa [PRep, prio] using hp
    obtain ⟨s', h1, h2, h3⟩ := hp'.remove
    exact ⟨s', h1, by simpa [PRep, prio] using h2, h3⟩

theorem worst_nil {side : Side} {s : Slab C} {L : List (Order C)} {w : Order C}
    (hp : PRep side s (L ++ [w])) :
    ∃ h, bootCandidate side s = .ok (some h) ∧
      s.leafNodes[h]? = some ⟨w.id, w.qty⟩ := by
  cases side with
  | bid =>
    have hp' : SRep s (w :: L.reverse) := by simpa [PRep, prio] using hp
    obtain ⟨h, h1, h2⟩ := hp'.findMin_cons
    exact ⟨h, h1, h2.leaf⟩
  | ask =>
    obtain ⟨h, h1, h2⟩ := SRep.findMax_concat hp
    exact ⟨h, h1, h2.leaf⟩

/-- Posting refines `refPost`. -/
theorem postLeaf_refines {side : Side} {s : Slab C} {own : List (Order C)} {q : EventQueue C}
    {evs : List (Event C)} {o : Order C} {seq : Nat} (hp : PRep side s own) (hq : QRep q evs)
    (hseq : seq < 2 ^ 64) (hl : ∀ x ∈ own, ∃ n < seq, x.id = mkOrderId side x.price n)
    (hprice : o.price < 2 ^ 64) (ho : o.id = mkOrderId side o.price seq) :
    match refPost side s.leafNodes.length (q.events.length - evs.length) own o with
    | .error e => postLeaf side o.price s q ⟨o.id, o.qty⟩ = .error (.ao e)
    | .ok r =>
      if r.posted then
        ∃ h s' q', postLeaf side o.price s q ⟨o.id, o.qty⟩ = .ok (.posted h s' q') ∧
          QRep q' (evs ++ r.events) ∧ q'.events.length = q.events.length ∧
          q'.header.seqNum = q.header.seqNum ∧ q'.callbackInfos.length = q.callbackInfos.length ∧
          ∃ s'', s'.setCallbackInfo h o.cb = .ok s'' ∧ PRep side s'' r.own ∧ SameSize s s''
      else postLeaf side o.price s q ⟨o.id, o.qty⟩ = .ok .refused ∧ r.own = own ∧ r.events = [] := by
  have hid : o.id < 2 ^ 128 := by rw [ho]; exact mkOrderId_lt hprice hseq
  have hqlen := hq.length_le
  have hnew : ∀ x ∈ prio side own, x.id ≠ o.id := by
    intro x hx h
    obtain ⟨n, hn, hx'⟩ := hl x (mem_prio.1 hx)
    rw [hx', ho] at h
    have := (mkOrderId_inj (by omega) hseq h).2
    omega
  unfold refPost
  by_cases hroom : own.length < s.leafNodes.length
  · rw [if_pos hroom]
    simp only [if_true]
    obtain ⟨L, R, rfl, h2, h3, h4⟩ := insertOrder_split hseq hl ho hp.sorted
    obtain ⟨h, s', g1, g2, g3⟩ := hp.insert (qty := o.qty) hid
      (fun x hx => by have := h3 x hx; cases side <;> exact this)
      (fun x hx => by have := h4 x hx; cases side <;> exact this) hroom
    obtain ⟨s'', e1, e2, e3⟩ := g3 o.cb
    refine ⟨h, s', q, ?_, by simpa using hq, rfl, rfl, rfl, s'', e1, ?_, e3⟩
    · unfold postLeaf; rw [g1]; rfl
    · rw [h2]; exact e2
  · rw [if_neg hroom]
    have hle := hp.length_le
    have hcap := hp.cap_pos
    have hne : own ≠ [] := by
      rintro rfl
      exact hroom hcap
    obtain ⟨L, w, rfl⟩ : ∃ L w, own = L ++ [w] :=
      ⟨own.dropLast, own.getLast hne, (List.dropLast_append_getLast hne).symm⟩
    simp only [List.getLast?_concat, List.dropLast_concat]
    have hfull := SRep.insert_full (qty := o.qty) hp hid hnew (by rw [length_prio]; omega)
    obtain ⟨h, hw1, hw2⟩ := worst_nil hp
    have hwid : w.id < 2 ^ 128 := hp.id_lt w (by simp)
    have hboot : shouldBoot side (priceFromKey w.id) o.price = !side.asGood w.price o.price := by
      have hwp : priceFromKey w.id = w.price := priceFromKey_eq hwid
      rw [hwp]
      generalize w.price = wp
      generalize o.price = op
      cases side with
      | bid => simp only [Side.asGood, shouldBoot]; by_cases h : wp < op <;> (simp [h]; try omega)
      | ask => simp only [Side.asGood, shouldBoot]; by_cases h : op < wp <;> (simp [h]; try omega)
    have hpost : postLeaf side o.price s q ⟨o.id, o.qty⟩ =
        (if (!side.asGood w.price o.price) = true then do
          let (r, slab) ← s.removeByKey w.id
          let (order, c) ← unwrap r
          let out : OutEvent :=
            { side := side.toU8, orderId := order.orderId, baseSize := order.baseQuantity,
              tag := TAG_OUT, padding := List.replicate 14 0 }
          let queue ← q.push (.out out) (some c) none
          let (h, slab) ← unwrapInsert (slab.insertLeaf ⟨o.id, o.qty⟩)
          .ok (.posted h slab queue)
        else .ok .refused) := by
      conv_lhs => unfold postLeaf
      rw [hfull]
      simp only
      rw [hw1, ok_bind]
      rw [show unwrap (some h) = .ok h from rfl, ok_bind, idx_eq hw2, ok_bind]
      rw [show LeafNode.orderId ⟨w.id, w.qty⟩ = w.id from rfl, hboot]
    by_cases hg : side.asGood w.price o.price = true
    · rw [if_pos hg]
      simp only [Bool.false_eq_true, if_false]
      refine ⟨?_, trivial, trivial⟩
      rw [hpost, hg]
      rfl
    · rw [if_neg hg]
      rw [Bool.not_eq_true] at hg
      obtain ⟨s1, hrm, hp1, hss1⟩ := hp.removeAny
      rw [List.append_nil] at hp1
      simp only [hg, Bool.not_false, if_true, hrm, ok_bind, unwrap, LeafNode.orderId] at hpost
      by_cases hr0 : q.events.length - evs.length = 0
      · rw [if_pos hr0]
        simp only
        rw [hpost, hq.push_err (by omega), err_bind]
      · rw [if_neg hr0]
        simp only [if_true]
        obtain ⟨q', hpush, hq', hql, hqs, hqc⟩ := hq.push_out (by omega) side w.id w.qty w.cb
        rw [hpush, ok_bind] at hpost
        have hl1 : ∀ x ∈ L, ∃ n < seq, x.id = mkOrderId side x.price n :=
          fun x hx => hl x (List.mem_append_left _ hx)
        obtain ⟨L', R', rfl, h2, h3, h4⟩ := insertOrder_split hseq hl1 ho hp1.sorted
        obtain ⟨h, s', g1, g2, g3⟩ := hp1.insert (qty := o.qty) hid
          (fun x hx => by have := h3 x hx; cases side <;> exact this)
          (fun x hx => by have := h4 x hx; cases side <;> exact this)
          (by rw [hss1.1]; simp at hle ⊢; omega)
        obtain ⟨s'', e1, e2, e3⟩ := g3 o.cb
        refine ⟨h, s', q', ?_, hq', hql, hqs, hqc, s'', e1, ?_, hss1.trans e3⟩
        · rw [hpost, g1]; rfl
        · rw [h2]; exact e2

theorem genOrderId_ok {q : EventQueue C} (h : q.header.seqNum + 1 < 2 ^ 64) (price : Nat) (side : Side) :
    q.genOrderId price side = .ok (mkOrderId side price q.header.seqNum,
      { q with header := { q.header with seqNum := q.header.seqNum + 1 } }) := by
  unfold EventQueue.genOrderId EventQueue.genSeqNum
  rw [addU64_ok (by simpa [U64] using h), ok_bind, ok_bind]
  simp only
  congr 2
  cases side with
  | bid =>
    simp only [mkOrderId, U64]
    rw [← Nat.shiftLeft_add_eq_or_of_lt (by omega), Nat.shiftLeft_eq]
  | ask =>
    simp only [mkOrderId]
    rw [← Nat.shiftLeft_add_eq_or_of_lt (by omega), Nat.shiftLeft_eq]

theorem genOrderId_panic {q : EventQueue C} (h : ¬ q.header.seqNum + 1 < 2 ^ 64) (price : Nat) (side : Side) :
    q.genOrderId price side = .error .panic := by
  unfold EventQueue.genOrderId EventQueue.genSeqNum
  have : addU64 q.header.seqNum 1 = .error .panic := by
    unfold addU64
    rw [if_neg (by simpa [U64] using h)]
  rw [this]; rfl

end AOB
