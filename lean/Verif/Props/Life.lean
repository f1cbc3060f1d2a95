import Verif.Spec.Life
import Verif.Props.History
/-
The life of one order (C109).
-/
namespace AOB
variable {C : Type} [CallbackInfo C] {m m' : Market C} {p : NewOrderParams C} {s : OrderSummary}

/-! ### Lists of notes -/

section lists
omit [CallbackInfo C]

theorem notesOf_append (id : Nat) (a b : List (Mark C)) : notesOf id (a ++ b) = notesOf id a ++ notesOf id b := by
  simp [notesOf]

theorem notesOf_posted (id : Nat) (l : List (Order C)) : notesOf id (l.map .posted) = (ofId id l).map .posted := by
  unfold notesOf ofId
  rw [List.filter_map]; rfl

theorem notesOf_cancelled (id : Nat) (l : List (Order C)) :
    notesOf id (l.map .cancelled) = (ofId id l).map .cancelled := by
  unfold notesOf ofId
  rw [List.filter_map]; rfl

theorem notesOf_event (id : Nat) (l : List (Event C)) :
    notesOf id (l.map .event) = (l.filter (fun e => e.id == id)).map .event := by
  unfold notesOf
  rw [List.filter_map]; rfl

theorem filter_id_nil {id : Nat} {es : List (Event C)} (h : ∀ e ∈ es, e.id ≠ id) :
    es.filter (fun e => e.id == id) = [] := by
  rw [List.filter_eq_nil_iff]
  intro e he; simpa using h e he
end lists

theorem story_snoc (is : List (Instr C)) (i : Instr C) : ∀ (m : Market C),
    story m (is ++ [i]) = story m is ++ (stepLog (m.run is) i).marks := by
  induction is with
  | nil => intro m; simp [story, Market.run]
  | cons j is ih =>
    intro m
    simp only [List.cons_append, story, ih, List.append_assoc]
    rfl

theorem story_posted (is : List (Instr C)) (o : Order C) : ∀ (m : Market C),
    .posted o ∈ story m is → o ∈ (runLog m is).posted := by
  induction is with
  | nil => intro m h; simp [story] at h
  | cons j is ih =>
    intro m h
    simp only [story, runLog, Log.append, List.mem_append, Log.marks, List.mem_map] at h ⊢
    rcases h with (⟨_, _, h⟩ | ⟨_, h, h'⟩ | ⟨_, _, h⟩) | h
    · cases h
    · cases h'; exact .inl h
    · cases h
    · exact .inr (ih _ h)

/-! ### One new order -/

/-- Within the matching, the events about one order are its fills followed by its out event. -/
theorem Steps.in_order {minBase n opp b q es opp' b' q'} (h : Steps p minBase n opp b q es opp' b' q')
    (hn : (opp.map Order.id).Nodup) (id : Nat) :
    es.filter (fun e => e.id == id) = fillsOf id es ++ outsOf id es := by
  induction h with
  | refl => rfl
  | @selfOut n o rest b q es opp' b' q' _ _ _ h ih =>
    rw [List.map_cons, List.nodup_cons] at hn
    have ih := ih hn.2
    by_cases hid : o.id = id
    · have hne := h.not_named (id := id) (fun x hx hx' => hn.1 (by rw [hid, ← hx']; exact List.mem_map_of_mem hx))
      rw [List.filter_cons_of_pos (by simpa [Event.id] using hid), filter_id_nil hne, fillsOf_out, outsOf_out,
        if_pos hid, fillsOf_eq_nil hne, outsOf_eq_nil hne]
      rfl
    · rw [List.filter_cons_of_neg (by simpa [Event.id] using hid), ih, fillsOf_out, outsOf_out, if_neg hid]
  | @fillOut n o rest b q es opp' b' q' _ _ _ h ih =>
    rw [List.map_cons, List.nodup_cons] at hn
    have ih := ih hn.2
    by_cases hid : o.id = id
    · have hne := h.not_named (id := id) (fun x hx hx' => hn.1 (by rw [hid, ← hx']; exact List.mem_map_of_mem hx))
      rw [List.filter_cons_of_pos (by simpa [Event.id] using hid),
        List.filter_cons_of_pos (by simpa [Event.id] using hid), filter_id_nil hne, fillsOf_fill, if_pos hid,
        fillsOf_out, outsOf_fill, outsOf_out, if_pos hid, fillsOf_eq_nil hne, outsOf_eq_nil hne]
      rfl
    · rw [List.filter_cons_of_neg (by simpa [Event.id] using hid),
        List.filter_cons_of_neg (by simpa [Event.id] using hid), ih, fillsOf_fill, if_neg hid, fillsOf_out,
        outsOf_fill, outsOf_out, if_neg hid]
  | @fillKeep n o rest b q es opp' b' q' _ _ _ h ih =>
    have ih := ih (by simpa using hn)
    by_cases hid : o.id = id
    · rw [List.filter_cons_of_pos (by simpa [Event.id] using hid), ih, fillsOf_fill, if_pos hid, outsOf_fill]
      rfl
    · rw [List.filter_cons_of_neg (by simpa [Event.id] using hid), ih, fillsOf_fill, if_neg hid, outsOf_fill]

theorem emitted_in_order (h : Reachable m) (hp : (Instr.newOrder p).Ok) (he : m.newOrder p = .ok (s, m')) (id : Nat) :
    (emitted m m').filter (fun e => e.id == id) = fillsOf id (emitted m m') ++ outsOf id (emitted m m') := by
  obtain ⟨a, a', n, r, ex, v⟩ := h.view hp he
  rw [v.em, List.filter_append, fillsOf_append, outsOf_append,
    v.ok.steps.in_order (v.known.inv.nodup _) id]
  by_cases hx : ∃ x ∈ a.orders p.side.opposite, x.id = id
  · obtain ⟨x, hx, rfl⟩ := hx
    have := v.ex_ne hx
    rw [filter_id_nil this, fillsOf_eq_nil this, outsOf_eq_nil this]
    simp
  · have := v.ok.steps.not_named (id := id) (fun o ho hid => hx ⟨o, ho, hid⟩)
    rw [fillsOf_eq_nil this, outsOf_eq_nil this]
    simp only [List.nil_append]
    have e1 : fillsOf id ex = [] := by
      unfold fillsOf
      rw [List.filter_eq_nil_iff]
      intro e he
      obtain ⟨w, _, rfl⟩ := v.ex_own e he
      simp [Event.isFill]
    have e2 : ex.filter (fun e => e.id == id) = outsOf id ex := by
      unfold outsOf
      apply List.filter_congr
      intro e he
      obtain ⟨w, _, rfl⟩ := v.ex_own e he
      simp [Event.isOut]
    rw [e1, e2]; rfl

omit [CallbackInfo C] in
theorem ofId_postedBy (id : Nat) : ofId id (postedBy p s) =
    if s.postedOrderId = some id then [⟨id, s.totalBaseQtyPosted, p.callbackInfo⟩] else [] := by
  unfold postedBy
  cases hi : s.postedOrderId with
  | none => simp
  | some i =>
    by_cases h : i = id
    · subst h; simp [ofId]
    · simp [ofId, h]

theorem LifeOf.newOrder {c is} (hr : ReachBy c is m) (hlen : is.length < 2 ^ 63) (hp : (Instr.newOrder p).Ok)
    (he : m.newOrder p = .ok (s, m')) {id : Nat} {l : List (Mark C)} (h : LifeOf m id l)
    (hfresh : l ≠ [] → s.postedOrderId ≠ some id) :
    LifeOf m' id (l ++ notesOf id (stepLog m (.newOrder p)).marks) := by
  have hre := hr.reachable
  have hlog : notesOf id (stepLog m (.newOrder p)).marks =
      (fillsOf id (emitted m m') ++ outsOf id (emitted m m')).map .event ++
      (if s.postedOrderId = some id then [.posted ⟨id, s.totalBaseQtyPosted, p.callbackInfo⟩] else []) := by
    have : stepLog m (.newOrder p) = { posted := postedBy p s, events := emitted m m' } := by simp only [stepLog, he]
    rw [this]
    simp only [Log.marks, List.map_nil, List.append_nil]
    rw [notesOf_append, notesOf_posted, notesOf_event, emitted_in_order hre hp he, ofId_postedBy]
    congr 1
    split <;> rfl
  rw [hlog]
  clear hlog
  -- an id that does not rest is not in the events, and rests afterwards only when posted
  have gone : (∀ x ∈ allResting m, x.id ≠ id) → fillsOf id (emitted m m') = [] ∧ outsOf id (emitted m m') = [] ∧
      (s.postedOrderId ≠ some id → ∀ x ∈ allResting m', x.id ≠ id) := by
    intro hx
    have hev : ∀ e ∈ emitted m m', e.id ≠ id := by
      intro e hm hid
      obtain ⟨⟨o, ho, hoid, _⟩, _⟩ := C09_callback_info hre hp he hm
      exact hx o (mem_allResting.2 ⟨_, ho⟩) (hoid.trans hid)
    refine ⟨fillsOf_eq_nil hev, outsOf_eq_nil hev, ?_⟩
    intro hs o ho hid
    obtain ⟨sd, ho⟩ := mem_allResting.1 ho
    rcases C48_nothing_appears hre hp he sd ho with ⟨x', hx', hid', _⟩ | ⟨_, hpo, _, _⟩
    · exact hx x' (mem_allResting.2 ⟨sd, hx'⟩) (hid'.trans hid)
    · exact hs (by rw [hpo, hid])
  rcases h with ⟨rfl, hx⟩ | ⟨o, fs, hoid, hfs, hle, h⟩
  · obtain ⟨e1, e2, e3⟩ := gone hx
    rw [e1, e2]
    by_cases hs : s.postedOrderId = some id
    · refine .inr ⟨⟨id, s.totalBaseQtyPosted, p.callbackInfo⟩, [], rfl, by simp, by simp, .inl ⟨?_, ?_⟩⟩
      · simp [hs]
      · have hown := C48_own_side hre hp he
        rw [hs] at hown
        obtain ⟨L, R, _, hown⟩ := hown
        exact mem_allResting.2 ⟨p.side, by rw [hown]; simp⟩
    · exact .inl ⟨by simp [hs], e3 hs⟩
  · have hs : s.postedOrderId ≠ some id := hfresh (by
      rcases h with ⟨rfl, _⟩ | ⟨_, rfl | rfl⟩ <;> simp)
    rw [if_neg hs, List.append_nil]
    rcases h with ⟨rfl, hx⟩ | ⟨hno, h⟩
    · -- the order rests
      generalize hxd : (⟨id, o.qty - sumBase fs, o.cb⟩ : Order C) = x at hx
      have hxid : x.id = id := by rw [← hxd]
      have hxq : x.qty = o.qty - sumBase fs := by rw [← hxd]
      have hxc : x.cb = o.cb := by rw [← hxd]
      clear hxd
      obtain ⟨side, hxs⟩ := mem_allResting.1 hx
      have hside : sideOfId id = side := by
        rw [← hxid, ← sideOfId_eq]; exact C11_resting_side hr (by omega) hxs
      obtain ⟨h1, h2, h3⟩ := C08_departures hre hp he side hxs
      rw [hxid] at h1 h2 h3
      have huniq : ∀ y ∈ allResting m, y.id = id → y = x := by
        intro y hy hyid
        have e1 := ofId_some hr.all_nodup hy
        have e2 := ofId_some hr.all_nodup hx
        rw [hyid] at e1; rw [hxid, e1] at e2
        simpa using e2
      have hnf : ∀ f ∈ fillsOf id (emitted m m'), ∃ b t, 0 < b ∧
          0 < worth (sideOfId id).opposite b (id / 2 ^ 64) ∧
          f = .fill (sideOfId id).opposite id b (worth (sideOfId id).opposite b (id / 2 ^ 64)) o.cb t := by
        intro f hf
        unfold fillsOf at hf
        rw [List.mem_filter, Bool.and_eq_true, beq_iff_eq] at hf
        obtain ⟨hf, hff, hfid⟩ := hf
        obtain ⟨⟨y, hy, hyid, hycb⟩, _⟩ := C09_callback_info hre hp he hf
        obtain rfl := huniq y (mem_allResting.2 ⟨_, hy⟩) (hyid.trans hfid)
        have hms : f.makerSide = side := by
          rw [← C11_resting_side hr (by omega) hy, ← C11_resting_side hr (by omega) hxs]
        obtain ⟨a, a', n, r, ex, v⟩ := hre.view hp he
        obtain ⟨w, _, t, rfl, ht, hq, _⟩ := v.ok.steps.fill f (v.mem_fill hf hff) hff
        simp only [Event.id, Event.makerCb, Event.makerSide] at hfid hycb hms
        have hop : (sideOfId id).opposite = p.side := by rw [hside, ← hms]; cases p.side <;> rfl
        have hpr : id / 2 ^ 64 = w.price := by rw [← hfid]; rfl
        refine ⟨t, p.callbackInfo, ht, ?_, ?_⟩
        · rw [hop, hpr]; exact hq
        · rw [hop, hpr, hfid, ← hycb, hxc]
      refine .inr ⟨o, fs ++ fillsOf id (emitted m m'), hoid, ?_, ?_, ?_⟩
      · intro f hf
        rcases List.mem_append.1 hf with hf | hf
        · exact hfs f hf
        · exact hnf f hf
      · rw [sumBase_append]; omega
      · have hq : o.qty - sumBase (fs ++ fillsOf id (emitted m m')) = x.qty - sumBase (fillsOf id (emitted m m')) := by
          rw [sumBase_append, hxq]; omega
        rw [hq]
        by_cases hstay : ∃ y ∈ resting m' side, y.id = id
        · rw [h2 hstay]
          obtain ⟨y, hy, hyid⟩ := hstay
          refine .inl ⟨by simp, ?_⟩
          rcases C48_nothing_appears hre hp he side hy with ⟨x', hx', e1, e2, e3⟩ | ⟨_, hpo, _, _⟩
          · have e1' := e1.trans hyid
            obtain rfl := huniq x' (mem_allResting.2 ⟨side, hx'⟩) e1'
            rw [e1'] at e3
            have : y = ⟨id, x'.qty - sumBase (fillsOf id (emitted m m')), o.cb⟩ := by
              rw [← hyid, ← hxc, e2, hyid, ← e3, ← hyid]
            rw [← this]
            exact mem_allResting.2 ⟨side, hy⟩
          · exact absurd (by rw [hpo, hyid]) hs
        · have hno : ∀ y ∈ resting m' side, y.id ≠ id := fun y hy hid => hstay ⟨y, hy, hid⟩
          rw [h3 hno]
          refine .inr ⟨?_, .inl ?_⟩
          · intro y hy hyid
            obtain ⟨sd, hy⟩ := mem_allResting.1 hy
            rcases C48_nothing_appears hre hp he sd hy with ⟨x', hx', e1, e2, e3⟩ | ⟨_, hpo, _, _⟩
            · obtain rfl := huniq x' (mem_allResting.2 ⟨sd, hx'⟩) (e1.trans hyid)
              have : sd = side := by
                rw [← C11_resting_side hr (by omega) hx', ← C11_resting_side hr (by omega) hxs]
              subst this
              exact hno y hy hyid
            · exact hs (by rw [hpo, hyid])
          · rw [hside, hxc]; simp
    · obtain ⟨e1, e2, e3⟩ := gone hno
      rw [e1, e2]
      refine .inr ⟨o, fs, hoid, hfs, hle, .inr ⟨e3 hs, ?_⟩⟩
      simpa using h

omit [CallbackInfo C] in
theorem LifeOf.cancel {id : Nat} {l : List (Mark C)} (h : LifeOf m id l) (hn : ((allResting m).map Order.id).Nodup)
    {ids : List Nat} (hrest : ∀ side, resting m' side = (resting m side).filter (fun x => decide (x.id ∉ ids))) :
    LifeOf m' id (l ++ notesOf id (Log.marks { cancelled := (allResting m).filter (fun o => decide (o.id ∈ ids)) })) := by
  have hall : allResting m' = (allResting m).filter (fun x => decide (x.id ∉ ids)) := by
    unfold allResting
    rw [hrest, hrest, List.filter_append]
  have hlog : notesOf id (Log.marks { cancelled := (allResting m).filter (fun o => decide (o.id ∈ ids)) }) =
      (if decide (id ∈ ids) then ofId id (allResting m) else []).map .cancelled := by
    simp only [Log.marks, List.map_nil, List.nil_append]
    rw [notesOf_cancelled, ofId_filter _ id (decide (id ∈ ids)) (fun o ho => by rw [ho])]
  rw [hlog]
  have gone : (∀ x ∈ allResting m, x.id ≠ id) → ∀ x ∈ allResting m', x.id ≠ id := by
    intro hx x hx'
    rw [hall] at hx'
    exact hx x (List.mem_filter.1 hx').1
  rcases h with ⟨rfl, hx⟩ | ⟨o, fs, hoid, hfs, hle, h⟩
  · refine .inl ⟨?_, gone hx⟩
    rw [ofId_none hx]; simp
  · refine .inr ⟨o, fs, hoid, hfs, hle, ?_⟩
    rcases h with ⟨rfl, hx⟩ | ⟨hno, h⟩
    · by_cases hid : id ∈ ids
      · refine .inr ⟨?_, .inr ?_⟩
        · intro x hx'
          rw [hall, List.mem_filter, decide_eq_true_iff] at hx'
          rintro rfl
          exact hx'.2 hid
        · have := ofId_some hn hx
          simp only at this
          rw [this]; simp [hid]
      · refine .inl ⟨by simp [hid], ?_⟩
        rw [hall, List.mem_filter]
        exact ⟨hx, by simpa using hid⟩
    · refine .inr ⟨gone hno, ?_⟩
      rw [ofId_none hno]
      simpa using h

theorem LifeOf.step {c is} (hr : ReachBy c is m) (hlen : is.length < 2 ^ 63) {i : Instr C} (hi : i.Ok)
    {id : Nat} {l : List (Mark C)} (h : LifeOf m id l)
    (hfresh : ∀ p s m', i = .newOrder p → m.newOrder p = .ok (s, m') → l ≠ [] → s.postedOrderId ≠ some id) :
    LifeOf (m.step i) id (l ++ notesOf id (stepLog m i).marks) := by
  have nothing : m.step i = m → stepLog m i = {} → LifeOf (m.step i) id (l ++ notesOf id (stepLog m i).marks) := by
    intro h1 h2
    rw [h1, h2]
    have : notesOf id (Log.marks ({} : Log C)) = [] := rfl
    rw [this, List.append_nil]; exact h
  cases i with
  | newOrder p =>
    cases he : m.newOrder p with
    | error e =>
      exact nothing (by simp only [Market.step, Market.exec, he]; rfl) (by simp only [stepLog, he])
    | ok x =>
      obtain ⟨s, m'⟩ := x
      have h1 : m.step (.newOrder p) = m' := by simp only [Market.step, Market.exec, he, ok_bind]
      rw [h1]
      exact h.newOrder hr hlen hi he (hfresh p s m' rfl he)
  | cancelOrder k =>
    cases he : m.cancelOrder k with
    | error e =>
      exact nothing (by simp only [Market.step, Market.exec, he]; rfl) (by simp only [stepLog, he])
    | ok x =>
      have hex : ∃ o ∈ allResting m, o.id = k := by
        by_contra hno
        have hno' : ∀ side, ∀ o ∈ resting m side, o.id ≠ k :=
          fun side o ho hid => hno ⟨o, mem_allResting.2 ⟨side, ho⟩, hid⟩
        rcases C22_cancel_missing hr.reachable hno' with h' | ⟨h', _⟩ <;> rw [h'] at he <;> cases he
      obtain ⟨o, ho, rfl⟩ := hex
      obtain ⟨_, h1, h2⟩ := hr.cancel_step (by omega) (mem_allResting.1 ho)
      have := h.cancel hr.all_nodup (ids := [o.id]) (m' := m.step (.cancelOrder o.id))
        (fun side => by
          rw [h1 side]; apply List.filter_congr
          intro y _
          by_cases hy : y.id = o.id <;> simp [hy])
      have hlog : stepLog m (.cancelOrder o.id) =
          { cancelled := (allResting m).filter (fun y => decide (y.id ∈ [o.id])) } := by
        simp only [stepLog, he]
        congr 1
        apply List.filter_congr
        intro y _
        by_cases hy : y.id = o.id <;> simp [hy]
      rw [hlog]; exact this
  | massCancelOrders ids =>
    cases he : m.massCancelOrders ids with
    | error e =>
      exact nothing (by simp only [Market.step, Market.exec, he]; rfl) (by simp only [stepLog, he])
    | ok x =>
      obtain ⟨s, m1⟩ := x
      obtain ⟨os, hos⟩ := C24_only_if hr (by omega) he
      obtain ⟨m', e1, e2, e3⟩ := C24_mass_cancel hr (by omega) hos
      have hmm : m1 = m' := by
        rw [he] at e1
        exact (Prod.mk.inj (Except.ok.inj e1)).2
      subst hmm
      have h1 : m.step (.massCancelOrders ids) = m1 := by simp only [Market.step, Market.exec, he, ok_bind]
      have h2 : stepLog m (.massCancelOrders ids) =
          { cancelled := (allResting m).filter (fun y => decide (y.id ∈ ids)) } := by simp only [stepLog, he]
      rw [h1, h2]
      exact h.cancel hr.all_nodup e2
  | consumeEvents n =>
    obtain ⟨m', e1, e2, e3, e4⟩ := C26_consume hr.reachable n
    have h1 : m.step (.consumeEvents n) = m' := by simp only [Market.step, Market.exec, e1, ok_bind]
    have h2 : (stepLog m (.consumeEvents n)).marks = [] := by simp only [stepLog, e1]; rfl
    rw [h1, h2]
    have hall : allResting m' = allResting m := by unfold allResting; rw [e3, e3]
    have : notesOf id ([] : List (Mark C)) = [] := rfl
    rw [this, List.append_nil]
    unfold LifeOf at h ⊢
    rw [hall]; exact h

/-! ### The theorems -/

variable {c : Config} {is : List (Instr C)}

/-- C109: in every history, the notes about every id are: nothing at all; or its posting, then its fills, then either
nothing while it rests, or one out event, or one cancellation, and then nothing more. -/
theorem C109_life (hc : c.Valid) (hok : ∀ i ∈ is, i.Ok) (hlen : is.length ≤ 2 ^ 63) (c0 : C) (id : Nat) :
    LifeOf ((c.market c0).run is) id (notesOf id (story (c.market c0) is)) := by
  induction is using List.reverseRecOn with
  | nil =>
    refine .inl ⟨rfl, ?_⟩
    obtain ⟨h1, _⟩ := create_refines hc c0
    have hall : allResting (c.market c0) = [] := by rw [Known_all h1]; rfl
    show ∀ x ∈ allResting (c.market c0), _
    simp [hall]
  | append_singleton is i ih =>
    rw [List.length_append, List.length_singleton] at hlen
    have hok' : ∀ j ∈ is, j.Ok := fun j hj => hok j (by simp [hj])
    have ih := ih hok' (by omega)
    have hrun : (c.market c0).run (is ++ [i]) = ((c.market c0).run is).step i := by simp [Market.run]
    rw [hrun, story_snoc, notesOf_append]
    have hh : HistoryOf c is ((c.market c0).run is) (runLog (c.market c0) is) := ⟨hc, hok', c0, rfl, rfl⟩
    refine ih.step hh.reachBy (by omega) (hok i (by simp)) ?_
    rintro p s m' rfl he hne hs
    have hi := hok (.newOrder p) (by simp)
    have hfr := (C10_fresh hh (by omega) hi he hs).2
    have hpo : ∃ o : Order C, o.id = id ∧ .posted o ∈ notesOf id (story (c.market c0) is) := by
      rcases ih with ⟨h, _⟩ | ⟨o, fs, h1, _, _, ⟨h, _⟩ | ⟨_, h | h⟩⟩
      · exact absurd h hne
      all_goals exact ⟨o, h1, by rw [h]; exact List.mem_cons_self⟩
    obtain ⟨o, ho, hm⟩ := hpo
    exact hfr o (story_posted is o _ (List.mem_filter.1 hm).1) ho

/-- C109: the story leaves nothing out: its postings, events and cancellations are those of the log. -/
theorem C109_complete (m : Market C) (is : List (Instr C)) :
    (story m is).filterMap Mark.posted? = (runLog m is).posted ∧
    (story m is).filterMap Mark.event? = (runLog m is).events ∧
    (story m is).filterMap Mark.cancelled? = (runLog m is).cancelled := by
  have none {α β γ : Type} (f : β → Option γ) (g : α → β) (l : List α) (h : ∀ x, f (g x) = none) :
      (l.map g).filterMap f = [] := by
    rw [List.filterMap_map, List.filterMap_eq_nil_iff]
    intro x _; exact h x
  have all {α β : Type} (f : β → Option α) (g : α → β) (l : List α) (h : ∀ x, f (g x) = some x) :
      (l.map g).filterMap f = l := by
    rw [List.filterMap_map, show f ∘ g = some from funext h, List.filterMap_some]
  induction is generalizing m with
  | nil => exact ⟨rfl, rfl, rfl⟩
  | cons i is ih =>
    obtain ⟨h1, h2, h3⟩ := ih (m.step i)
    simp only [story, runLog, Log.append, Log.marks, List.filterMap_append, h1, h2, h3]
    refine ⟨?_, ?_, ?_⟩
    · rw [none _ Mark.event _ (fun _ => rfl), all _ Mark.posted _ (fun _ => rfl), none _ Mark.cancelled _ (fun _ => rfl)]
      simp
    · rw [all _ Mark.event _ (fun _ => rfl), none _ Mark.posted _ (fun _ => rfl), none _ Mark.cancelled _ (fun _ => rfl)]
      simp
    · rw [none _ Mark.event _ (fun _ => rfl), none _ Mark.posted _ (fun _ => rfl), all _ Mark.cancelled _ (fun _ => rfl)]
      simp

/-! ### The demo -/

example := C109_life demo_valid (is := demoLong) (by decide +kernel) (by decide) ⟨0, 0⟩ (10 * 2 ^ 96)
example := C109_complete (demoCfg.market (⟨0, 0⟩ : DemoCb)) demoLong

/-- An ask that is traded away, one that is taken out because its owner would trade with themself, the evicted bid, the
cancelled bid, one that still rests, and an id that never was. -/
example :
    notesOf (10 * 2 ^ 96) (story (demoCfg.market (⟨0, 0⟩ : DemoCb)) demoLong) =
      [.posted ⟨10 * 2 ^ 96, 5, ⟨1, 7⟩⟩, .event (.fill .bid (10 * 2 ^ 96) 5 50 ⟨1, 7⟩ ⟨3, 7⟩),
       .event (.out .ask (10 * 2 ^ 96) 0 ⟨1, 7⟩)] ∧
    notesOf (10 * 2 ^ 96 + 2) (story (demoCfg.market (⟨0, 0⟩ : DemoCb)) demoLong) =
      [.posted ⟨10 * 2 ^ 96 + 2, 7, ⟨3, 7⟩⟩, .event (.out .ask (10 * 2 ^ 96 + 2) 7 ⟨3, 7⟩)] ∧
    notesOf (8 * 2 ^ 96 + (2 ^ 64 - 1 - 4)) (story (demoCfg.market (⟨0, 0⟩ : DemoCb)) demoLong) =
      [.posted ⟨8 * 2 ^ 96 + (2 ^ 64 - 1 - 4), 3, ⟨5, 7⟩⟩,
       .event (.out .bid (8 * 2 ^ 96 + (2 ^ 64 - 1 - 4)) 3 ⟨5, 7⟩)] ∧
    notesOf (9 * 2 ^ 96 + (2 ^ 64 - 1 - 3)) (story (demoCfg.market (⟨0, 0⟩ : DemoCb)) demoLong) =
      [.posted ⟨9 * 2 ^ 96 + (2 ^ 64 - 1 - 3), 8, ⟨4, 7⟩⟩, .cancelled ⟨9 * 2 ^ 96 + (2 ^ 64 - 1 - 3), 8, ⟨4, 7⟩⟩] ∧
    notesOf (9 * 2 ^ 96 + (2 ^ 64 - 1 - 5)) (story (demoCfg.market (⟨0, 0⟩ : DemoCb)) demoLong) =
      [.posted ⟨9 * 2 ^ 96 + (2 ^ 64 - 1 - 5), 4, ⟨6, 7⟩⟩] ∧
    notesOf 5 (story (demoCfg.market (⟨0, 0⟩ : DemoCb)) demoLong) = [] := by decide +kernel

end AOB
