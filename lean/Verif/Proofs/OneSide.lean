import Verif.Spec.Sides
import Verif.Proofs.PoolLive
import Verif.Proofs.PoolStrict
import Verif.Proofs.SidesBook
import Verif.Proofs.PoolDepth
/-! # A pool trades on one side of a batch -/
namespace Verif.Dex
open Verif Verif.Amm Verif.Spec

theorem mem_nodup_fst {pools : List (Nat × Pool)} (hnd : (pools.map (·.1)).Nodup) {e e' : Nat × Pool} (he : e ∈ pools) (he' : e' ∈ pools)
    (h : e.1 = e'.1) : e = e' := by
  induction pools with
  | nil => cases he
  | cons a l ih =>
    simp only [List.map_cons, List.nodup_cons, List.mem_map, not_exists, not_and] at hnd
    rcases List.mem_cons.1 he with rfl | he
    · rcases List.mem_cons.1 he' with rfl | he'
      · rfl
      · exact absurd h.symm (hnd.1 _ he')
    · have he1 := he
      rcases List.mem_cons.1 he' with rfl | he'
      · exact absurd h (hnd.1 _ he1)
      · exact ih hnd.2 he1 he'

theorem singlePrice_side {mp : Int} : ∀ {ps : List (Nat × Pool)} {pos : List Order}, singlePriceOrders mp ps = some pos →
    ∀ o ∈ pos, ∃ e ∈ ps, o.kind = .pool e.1 ∧ (o.dir = .buy → ∃ b, e.2.buyAmountOver mp = some b ∧ 0 < b) ∧
      (o.dir = .sell → ∃ b, e.2.sellAmountUnder mp = some b ∧ 0 < b) := by
  intro ps
  induction ps with
  | nil => intro pos h; simp only [singlePriceOrders, Option.some.injEq] at h; subst h; simp
  | cons e ps ih =>
    intro pos h
    obtain ⟨id, p⟩ := e
    unfold singlePriceOrders at h
    split at h
    · rename_i b sl rest h1 h2 h3
      have h := Option.some.inj h
      subst h
      intro o ho
      simp only [List.mem_append] at ho
      rcases ho with (ho | ho) | ho
      · split at ho
        · rename_i hb
          simp only [List.mem_singleton] at ho
          subst ho
          exact ⟨(id, p), by simp, rfl, fun _ => ⟨b, h1, hb⟩, fun h => by cases h⟩
        · cases ho
      · split at ho
        · rename_i hb
          simp only [List.mem_singleton] at ho
          subst ho
          exact ⟨(id, p), by simp, rfl, (fun h => by cases h), fun _ => ⟨sl, h2, hb⟩⟩
        · cases ho
      · obtain ⟨e, he, hi⟩ := ih h3 o ho
        exact ⟨e, by simp [he], hi⟩
    · cases h

theorem ammPool_fields {env : Env} {pool : PoolRec} {rx ry ps : Int} {ap : Pool} (h : ammPool env pool rx ry ps = some ap) :
    ap.rx = rx ∧ ap.ry = ry ∧ ap.ps = ps := by
  unfold ammPool at h
  split at h
  · have h := Option.some.inj h
    subst h
    exact ⟨rfl, rfl, rfl⟩
  · unfold newRangedPool at h
    simp only [Option.bind_eq_bind, Option.bind_eq_some_iff, Option.pure_def, Option.some.injEq] at h
    obtain ⟨⟨tx, ty⟩, _, h⟩ := h
    subst h; simp

/-- In the first batch of a pair a pool does not even place orders on both sides. -/
theorem oneSide_first {env : Env} {pr : Params} {os : List Order} {pools : List (Nat × Pool)} {out : MatchOut}
    (hu : ∀ o ∈ os, ∀ id, o.kind ≠ .pool id) (hnd : (pools.map (·.1)).Nodup)
    (h : keeperMatch env pr os pools none = some (some out)) : OneSided out.orders := by
  unfold keeperMatch at h
  simp only at h
  split at h
  · cases h
  · split at h
    · cases h
    · rename_i mp hmp
      split at h
      · cases h
      · rename_i pos hpos
        split at h
        · cases h
        · cases h
        · rename_i st hst
          have h := Option.some.inj (Option.some.inj h)
          subst h
          have hids := ids_single hst
          have hside := singlePrice_side hpos
          have key : ∀ q, q ∈ (bookOf (os ++ pos)).orders → ∀ id, (st.heap q).kind = .pool id → heapOf (os ++ pos) q ∈ pos := by
            intro q hq id hk
            have hr := List.mem_range.1 (book_orders_mem hq)
            by_cases hlt : q < os.length
            · rw [(hids q).1, heapOf_left hlt] at hk
              exact absurd hk (hu _ (List.getElem_mem _) id)
            · exact heapOf_right (by omega) hr
          have main : ∀ q q', heapOf (os ++ pos) q ∈ pos → heapOf (os ++ pos) q' ∈ pos → ∀ id,
              (heapOf (os ++ pos) q).kind = .pool id → (heapOf (os ++ pos) q').kind = .pool id →
              (heapOf (os ++ pos) q).dir = .buy → (heapOf (os ++ pos) q').dir = .sell → False := by
            intro q q' h1 h2 id k1 k2 d1 d2
            obtain ⟨e, he, hk, hb, _⟩ := hside _ h1
            obtain ⟨e', he', hk', _, hs⟩ := hside _ h2
            rw [hk] at k1; rw [hk'] at k2
            have := mem_nodup_fst hnd he he' (by injection k1 with k1; injection k2 with k2; rw [k1, k2])
            subst this
            obtain ⟨b, hb1, hb2⟩ := hb d1
            obtain ⟨c, hc1, hc2⟩ := hs d2
            rcases not_both hb1 hc1 with h | h <;> omega
          intro o ho o' ho' id hk hk' _ _
          obtain ⟨q, hq, rfl⟩ := List.mem_map.1 ho
          obtain ⟨q', hq', rfl⟩ := List.mem_map.1 ho'
          have p1 := key q hq id hk
          have p2 := key q' hq' id hk'
          rw [(hids q).1] at hk
          rw [(hids q').1] at hk'
          rw [(hids q).2.1, (hids q').2.1]
          cases d1 : (heapOf (os ++ pos) q).dir <;> cases d2 : (heapOf (os ++ pos) q').dir
          · rfl
          · exact (main q q' p1 p2 id hk hk' d1 d2).elim
          · exact (main q' q p2 p1 id hk' hk d2 d1).elim
          · rfl

theorem poolOrders_price {sqrt : Int → Int} (hs : ∀ d, 0 ≤ d → 0 ≤ sqrt d) {id : Nat} {p : Pool} {lo hi : Int} {prec : Nat} (hlo : 0 < lo)
    (hhi : 0 < hi) (hrx : 0 ≤ p.rx) (hry : 0 ≤ p.ry) (hpp : ∀ pp, p.price = some pp → 0 ≤ pp) {o : Order}
    (ho : o ∈ poolOrders sqrt id p lo hi prec) :
    o.kind = .pool id ∧ ∃ pp, p.price = some pp ∧ (o.dir = .buy → o.price < pp) ∧ (o.dir = .sell → pp ≤ o.price) := by
  unfold poolOrders poolBuyOrders poolSellOrders at ho
  simp only [List.mem_append, List.mem_map] at ho
  rcases ho with ⟨a, ha, rfl⟩ | ⟨a, ha, rfl⟩
  · refine ⟨rfl, ?_⟩
    cases e : poolBuyOrdersRaw sqrt p lo hi prec with
    | done l =>
      rw [e] at ha
      cases hp : p.price with
      | none => simp [poolBuyOrdersRaw, hp] at e
      | some pp => exact ⟨pp, rfl, fun _ => poolBuy_strict hs hrx hry hlo hhi e hp a ha, fun h => by cases h⟩
    | panic => rw [e] at ha; cases ha
    | outOfFuel => rw [e] at ha; cases ha
  · refine ⟨rfl, ?_⟩
    cases e : poolSellOrdersRaw sqrt p lo hi prec with
    | done l =>
      rw [e] at ha
      cases hp : p.price with
      | none => simp [poolSellOrdersRaw, hp] at e
      | some pp => exact ⟨pp, rfl, (fun h => by cases h), fun _ => ((poolSell_gen hs (fun _ => hrx) hry hlo hpp).2 l e).2.2 pp hp a ha⟩
    | panic => rw [e] at ha; cases ha
    | outOfFuel => rw [e] at ha; cases ha

theorem oneSide_later {env : Env} (hs : ∀ d, 0 ≤ d → 0 ≤ env.sqrt d) {pr : Params} (hpr : SaneParams pr) {os : List Order}
    {pools : List (Nat × Pool)} {L : Int} {out : MatchOut} (hL : 0 < L) (hl : ∀ o ∈ os, Live o)
    (hu : ∀ o ∈ os, ∀ id, o.kind ≠ .pool id) (hnd : (pools.map (·.1)).Nodup) (hr : ∀ e ∈ pools, 0 ≤ e.2.rx ∧ 0 ≤ e.2.ry)
    (hpp : ∀ e ∈ pools, ∀ pp, e.2.price = some pp → 0 ≤ pp)
    (hdust : ∀ o ∈ os, NoDust L o)
    (hdustp : ∀ lo hi, pr.priceLimits L = some (lo, hi) → ∀ e ∈ pools, ∀ o ∈ poolOrders env.sqrt e.1 e.2 lo hi pr.tickPrec, Live o → NoDust L o)
    (h : keeperMatch env pr os pools (some L) = some (some out)) : OneSided out.orders := by
  unfold keeperMatch at h
  simp only at h
  split at h
  · cases h
  · rename_i lo hi hlim
    obtain ⟨hlo, hhi⟩ := priceLimits_pos hpr hL hlim
    split at h
    · cases h
    · rename_i r hrr
      split at h
      · have h := Option.some.inj (Option.some.inj h)
        subst h
        generalize hposdef : pools.flatMap (fun p => poolOrders env.sqrt p.1 p.2 lo hi pr.tickPrec) = pos at *
        have hmem : ∀ o ∈ pos, ∃ e ∈ pools, o ∈ poolOrders env.sqrt e.1 e.2 lo hi pr.tickPrec := by
          intro o ho
          rw [← hposdef] at ho
          exact List.mem_flatMap.1 ho
        have hpo : ∀ o ∈ pos, ∃ e ∈ pools, IsPoolOrder e.1 o := by
          intro o ho
          obtain ⟨e, he, hop⟩ := hmem o ho
          exact ⟨e, he, poolOrders_pos hlo hhi (hpp e he) o hop⟩
        have hal := all_live (pos := pos) hl (fun o ho => by obtain ⟨e, _, hi⟩ := hpo o ho; exact hi.live)
        obtain ⟨r', e1, e2, _⟩ := obMatch_book hL List.nodup_range hal
        have := Option.some.inj (e1.symm.trans hrr)
        subst this
        have hcross : Crossing (heapOf (os ++ pos)) r'.st.log := by
          refine match_crossing hL List.nodup_range hal ?_ e1
          intro p hp hd hz
          by_cases hlt : p < os.length
          · rw [heapOf_left hlt] at hd hz ⊢
            exact hdust _ (List.getElem_mem _) hd hz
          · have hm := heapOf_right (os := os) (pos := pos) (by omega) (List.mem_range.1 hp)
            obtain ⟨e, he, hop⟩ := hmem _ hm
            exact hdustp lo hi hlim e he _ hop (hal p hp) hd hz
        have hin : ∀ q, q ∈ (bookOf (os ++ pos)).orders → ∀ id, (r'.st.heap q).kind = .pool id → HasTraded (r'.st.heap q) →
            (∃ e ∈ pools, e.1 = id ∧ ∃ pp, e.2.price = some pp ∧ ((heapOf (os ++ pos) q).dir = .buy → (heapOf (os ++ pos) q).price < pp) ∧
              ((heapOf (os ++ pos) q).dir = .sell → pp ≤ (heapOf (os ++ pos) q).price)) ∧ ∃ f ∈ r'.st.log, f.ptr = q := by
          intro q hq id hk ht
          have hrg := List.mem_range.1 (book_orders_mem hq)
          have hk2 := hk
          rw [e2, applyFills_kind] at hk2
          by_cases hlt : q < os.length
          · rw [heapOf_left hlt] at hk2
            exact absurd hk2 (hu _ (List.getElem_mem _) id)
          · have hm := heapOf_right (os := os) (pos := pos) (by omega) hrg
            obtain ⟨e, he, hop⟩ := hmem _ hm
            obtain ⟨k1, pp, k2, k3, k4⟩ := poolOrders_price hs hlo hhi (hr e he).1 (hr e he).2 (hpp e he) hop
            obtain ⟨_, _, hi⟩ := hpo _ hm
            refine ⟨⟨e, he, ?_, pp, k2, k3, k4⟩, ?_⟩
            · rw [k1] at hk2; injection hk2
            · by_contra hno
              push Not at hno
              unfold HasTraded at ht
              rw [e2, applyFills_other hno, hi.fresh.2.1] at ht
              omega
        have main : ∀ q q', q ∈ (bookOf (os ++ pos)).orders → q' ∈ (bookOf (os ++ pos)).orders → ∀ id,
            (r'.st.heap q).kind = .pool id → (r'.st.heap q').kind = .pool id → HasTraded (r'.st.heap q) → HasTraded (r'.st.heap q') →
            (heapOf (os ++ pos) q).dir = .buy → (heapOf (os ++ pos) q').dir = .sell → False := by
          intro q q' hq hq' id k k' t t' d d'
          obtain ⟨⟨e, he, ei, pp, ep, hb, _⟩, f, hf, fp⟩ := hin q hq id k t
          obtain ⟨⟨e', he', ei', pp', ep', _, hsl⟩, g, hg, gp⟩ := hin q' hq' id k' t'
          have := mem_nodup_fst hnd he he' (ei.trans ei'.symm)
          subst this
          rw [ep] at ep'
          have hpe := Option.some.inj ep'
          subst hpe
          have c := hcross f hf g hg (by rw [fp]; exact d) (by rw [gp]; exact d')
          rw [fp, gp] at c
          have := hb d; have := hsl d'
          omega
        have hdir : ∀ q, (r'.st.heap q).dir = (heapOf (os ++ pos) q).dir := fun q => by rw [e2, applyFills_dir]
        intro o ho o' ho' id hk hk' ht ht'
        obtain ⟨q, hq, rfl⟩ := List.mem_map.1 ho
        obtain ⟨q', hq', rfl⟩ := List.mem_map.1 ho'
        rw [hdir, hdir]
        cases d1 : (heapOf (os ++ pos) q).dir <;> cases d2 : (heapOf (os ++ pos) q').dir
        · rfl
        · exact (main q q' hq hq' id hk hk' ht ht' d1 d2).elim
        · exact (main q' q hq' hq id hk' hk ht' ht d2 d1).elim
        · rfl
      · cases h

end Verif.Dex
