import Verif.Proofs.PairBatch
import Verif.Proofs.Escrow
import Verif.Proofs.OneSide
/-! # The trades of pools and the escrow account in a batch -/
namespace Verif.Dex
open Verif Verif.Amm Verif.Spec

variable {s s' : State}

theorem buyOver_price {p : Pool} {m b : Int} (h : p.buyAmountOver m = some b) (hb : 0 < b) : ∃ pp, p.price = some pp ∧ m < pp := by
  unfold Pool.buyAmountOver at h
  simp only at h
  have h1 : m ≤ (if m < p.floorPrice then p.floorPrice else m) := by split <;> omega
  generalize (if m < p.floorPrice then p.floorPrice else m) = u at *
  cases hpp : p.price with
  | none => rw [hpp] at h; simp at h
  | some pp =>
    rw [hpp] at h
    refine ⟨pp, rfl, ?_⟩
    by_contra hc
    simp only at h
    rw [if_pos (by omega)] at h
    have := Option.some.inj h
    omega

theorem sellUnder_price {p : Pool} {m b : Int} (h : p.sellAmountUnder m = some b) (hb : 0 < b) : ∃ pp, p.price = some pp ∧ pp < m := by
  unfold Pool.sellAmountUnder at h
  simp only at h
  have h1 : (if m > p.ceilPrice then p.ceilPrice else m) ≤ m := by split <;> omega
  generalize (if m > p.ceilPrice then p.ceilPrice else m) = u at *
  cases hpp : p.price with
  | none => rw [hpp] at h; simp at h
  | some pp =>
    rw [hpp] at h
    refine ⟨pp, rfl, ?_⟩
    by_contra hc
    simp only at h
    rw [if_pos (by omega)] at h
    have := Option.some.inj h
    omega

/-- The matching of a pair in a sane state. -/
theorem pair_book {env : Env} (hc : Sane env s) (hs : SaneState env s) {p : Pair} (hp : p ∈ s.pairs) {s2 : State} {book : List OrderRec}
    {pools : List (Nat × Pool)} {out : MatchOut} (hB : PairBatch env s s2 p book pools (some out)) :
    Nonempty (MatchedBook env.sqrt (book.map newUserOrder) pools out) := by
  refine keeperMatch_fair hs.params ?_ (hc.prices p hp) ?_ hB.result
  · intro x hx
    obtain ⟨o, hm, rfl⟩ := List.mem_map.1 hx
    exact newUser_live (hc.orders o ((hB.bookIs o).1 hm).1)
  · intro e he pp hpe
    obtain ⟨q, q1, q2, q3, _, q5, _⟩ := (hB.poolsAre e.1 e.2).1 he
    exact hs.prices q q1 p hp q3.symm _ _ (by rw [q2]; exact q5) hpe

theorem pool_trades {env : Env} (hsq : ∀ d, 0 ≤ d → 0 ≤ env.sqrt d) (hc : Sane env s) (hs : SaneState env s) {p : Pair} (hp : p ∈ s.pairs)
    {s2 : State} {book : List OrderRec} {pools : List (Nat × Pool)} {out : MatchOut} (hB : PairBatch env s s2 p book pools (some out))
    {y : Order} (hy : y ∈ out.orders) {id : Nat} (hk : y.kind = .pool id) :
    ∃ ap pp trades, (id, ap) ∈ pools ∧ ap.price = some pp ∧ PoolTrades pp y trades := by
  obtain ⟨B⟩ := pair_book hc hs hp hB
  rw [B.orders] at hy
  obtain ⟨i, hi, rfl⟩ := List.mem_map.1 hy
  have hlt := List.mem_range.1 ((book_orders_nodup (heapOf (book.map newUserOrder ++ B.pos))
    (List.nodup_range (n := (book.map newUserOrder ++ B.pos).length))).2.1 i hi)
  have hst := B.fair.static i
  have hlen : ¬ i < (book.map newUserOrder).length := by
    intro hcon
    rw [hst.2.2.2.2, heapOf_left hcon, List.getElem_map] at hk
    cases hk
  have hmem := heapOf_right (os := book.map newUserOrder) (pos := B.pos) (by omega) hlt
  obtain ⟨e0, _, he0⟩ := B.pool _ hmem
  have hL := B.fair.live i he0.live
  have hop := B.fair.opened i
  have hpd := B.fair.paid i
  have hrc := B.fair.received i
  have hfr := he0.fresh.2
  have hfull := he0.live
  have key : ∃ e ∈ pools, e.1 = id ∧ ∃ pp, e.2.price = some pp ∧ ∀ f ∈ fillsOf B.st.log i,
      ((B.st.heap i).dir = .buy → f.price < pp) ∧ ((B.st.heap i).dir = .sell → pp ≤ f.price) := by
    have hlim : ∀ f ∈ fillsOf B.st.log i, WithinLimit (heapOf (book.map newUserOrder ++ B.pos) i) f.price := by
      intro f hf
      unfold fillsOf at hf
      obtain ⟨g1, g2⟩ := List.mem_filter.1 hf
      have := B.fair.fill_limit f g1
      rwa [show f.ptr = i by simpa using g2] at this
    rw [hst.1]
    rw [hst.2.2.2.2] at hk
    rcases B.origin with ⟨mp, h1, h2⟩ | ⟨lo, hi', prec, h1, h2, h3⟩
    · obtain ⟨e, he, k1, k2, k3⟩ := singlePrice_side h1 _ hmem
      have hid : e.1 = id := by rw [k1] at hk; injection hk
      have hall : ∀ f ∈ fillsOf B.st.log i, f.price = mp := by
        intro f hf
        unfold fillsOf at hf
        exact h2 f (List.mem_filter.1 hf).1
      refine ⟨e, he, hid, ?_⟩
      cases hd : (heapOf (book.map newUserOrder ++ B.pos) i).dir with
      | buy =>
        obtain ⟨b, b1, b2⟩ := k2 hd
        obtain ⟨pp, b3, b4⟩ := buyOver_price b1 b2
        exact ⟨pp, b3, fun f hf => ⟨fun _ => by rw [hall f hf]; exact b4, fun h => by simp at h⟩⟩
      | sell =>
        obtain ⟨b, b1, b2⟩ := k3 hd
        obtain ⟨pp, b3, b4⟩ := sellUnder_price b1 b2
        exact ⟨pp, b3, fun f hf => ⟨fun h => by simp at h, fun _ => by rw [hall f hf]; exact le_of_lt b4⟩⟩
    · rw [h3] at hmem
      obtain ⟨e, he, hpo⟩ := List.mem_flatMap.1 hmem
      rw [← h3] at hpo
      obtain ⟨q, q1, q2, q3, _, q5, _⟩ := (hB.poolsAre e.1 e.2).1 he
      obtain ⟨g1, g2, g3⟩ := ammPool_fields q5
      have hnn := hc.reach.wf.bankNN
      obtain ⟨k1, pp, k2, k3, k4⟩ := poolOrders_price hsq h1 h2 (by rw [g1]; exact hnn _ _) (by rw [g2]; exact hnn _ _)
        (fun pp hpe => hs.prices q q1 p hp q3.symm _ _ (by rw [q2]; exact q5) hpe) hpo
      have hid : e.1 = id := by rw [k1] at hk; injection hk
      refine ⟨e, he, hid, pp, k2, fun f hf => ?_⟩
      have := hlim f hf
      unfold WithinLimit at this
      refine ⟨fun hd => ?_, fun hd => ?_⟩
      · rw [hd] at this
        have := k3 hd
        simp only at *
        omega
      · rw [hd] at this
        have := k4 hd
        simp only at *
        omega
  obtain ⟨e, he, hid, pp, hpp, hfl⟩ := key
  refine ⟨e.2, pp, (fillsOf B.st.log i).map (fun f => ⟨f.amt, f.price⟩), by rw [← hid]; exact he, hpp, ?_⟩
  refine ⟨?_, ?_, ?_, ?_, ?_⟩
  · intro f hf
    obtain ⟨g, hg, rfl⟩ := List.mem_map.1 hf
    have hg' := hg
    unfold fillsOf at hg'
    have hq := B.fair.fill_pos g (List.mem_filter.1 hg').1
    exact ⟨hq.1, hq.2, (hfl g hg).1, (hfl g hg).2⟩
  · rw [hst.2.2.1, hop, ← hfr.1]
    unfold total
    rw [List.map_map]
    simp [Function.comp_def]
  · rw [hpd, hfr.2.1, hst.1, Int.zero_add]
    unfold total
    rw [List.map_map]
    rfl
  · rw [hrc, hfr.2.2, hst.1, Int.zero_add]
    unfold total
    rw [List.map_map]
    rfl
  · exact ⟨hL.open_nonneg, hL.paid_le⟩

theorem escrow_batch {env : Env} (hc : Sane env s) (hs : SaneState env s) {p : Pair} (hp : p ∈ s.pairs)
    {s2 : State} {book : List OrderRec} {pools : List (Nat × Pool)} {out : Option MatchOut} (hB : PairBatch env s s2 p book pools out)
    (hd : ∀ id, s.params.dustCollector ≠ .pairEscrow id) (d : Denom) :
    escrowSlack s2 p.id d = escrowSlack s p.id d - (if d = p.base then bought (resultOrders out) - sold (resultOrders out) else 0) := by
  rw [hB.escrow hd d]
  cases out with
  | none => simp [resultOrders, tradedSurplus, bought, sold, total, resultDiff]
  | some out =>
    obtain ⟨B⟩ := pair_book hc hs hp hB
    have hfl := book_flow B p (hc.reach.wf.pairNe p hp).1 (by
      intro x hx
      obtain ⟨o, _, rfl⟩ := List.mem_map.1 hx
      exact ⟨rfl, rfl, rfl⟩) d
    have e1 : total (fun y => if y.isMatched then flow p y (.pairEscrow p.id) d else 0) out.orders = tradedSurplus p d out.orders := by
      unfold tradedSurplus
      apply total_congr'
      intro y _
      unfold flow Order.isMatched
      rw [if_pos rfl]
      by_cases hym : y.openAmt < y.amount
      · simp only [hym, decide_true, if_true]
        cases hk : y.kind with
        | user a b => simp
        | pool id => simp
      · simp [hym]
    have e2 : baseImbalance out.orders = bought out.orders - sold out.orders := by
      unfold bought sold
      rw [← total_sub']
      unfold baseImbalance total
      congr 1
      apply List.map_congr_left
      intro y _
      cases y.dir <;> simp
    rw [e1, e2] at hfl
    show _ + tradedSurplus p d out.orders - (if d = p.quote then out.diff else 0) = _ - (if d = p.base then bought out.orders - sold out.orders else 0)
    rw [hfl]
    ring

end Verif.Dex
