import Verif.Spec.Page
import Verif.Proofs.DiskRead
/-! # Pagination -/
namespace Verif.Dex.Query
open Verif Verif.Dex Verif.Dex.Keys Verif.Dex.KV Verif.Spec

variable {α : Type}

/-- The records found in a list of entries, with their keys. -/
def hits (g : Bytes × Val → Option α) (es : Store) : List (Bytes × α) := es.filterMap (fun e => (g e).map (fun x => (e.1, x)))

theorem hits_append (g : Bytes × Val → Option α) (a b : Store) : hits g (a ++ b) = hits g a ++ hits g b := List.filterMap_append

theorem hits_cons (g : Bytes × Val → Option α) (e : Bytes × Val) (es : Store) :
    hits g (e :: es) = ((g e).map (fun x => (e.1, x))).toList ++ hits g es := by
  unfold hits
  cases h : g e <;> simp [h]

/-- The page from a key on. -/
theorem pageByKey_spec {f : Bytes × Val → Option (Option α)} {g : Bytes × Val → Option α} {limit : UInt64} :
    ∀ (es : Store) (n : UInt64), (∀ e ∈ es, f e = some (g e)) → n ≤ limit →
    ∃ es1 es2, es = es1 ++ es2 ∧ pageByKey f limit n es = some ((hits g es1).map (·.2), es2.head?.map (·.1)) ∧
      (es2 ≠ [] → n.toNat + (hits g es1).length = limit.toNat) := by
  intro es
  induction es with
  | nil => intro n _ _; exact ⟨[], [], rfl, rfl, fun h => absurd rfl h⟩
  | cons e es ih =>
    intro n hf hn
    by_cases he : n = limit
    · exact ⟨[], e :: es, rfl, by simp [pageByKey, he, hits], fun _ => by simp [hits, he]⟩
    · have hfe := hf e (List.mem_cons_self ..)
      have hlt : n.toNat < limit.toNat := by
        rw [UInt64.le_iff_toNat_le] at hn
        have : n.toNat ≠ limit.toNat := fun h => he (UInt64.toNat_inj.1 h)
        omega
      cases hg : g e with
      | none =>
        obtain ⟨a, b, h1, h2, h3⟩ := ih n (fun x hx => hf x (List.mem_cons_of_mem _ hx)) hn
        refine ⟨e :: a, b, by rw [h1]; rfl, ?_, fun hb => ?_⟩
        · simp only [pageByKey, if_neg he, hfe, hg, h2, hits_cons]; simp
        · rw [hits_cons, hg]; simpa using h3 hb
      | some x =>
        have hn1 : (n + 1).toNat = n.toNat + 1 := by
          rw [UInt64.toNat_add, UInt64.toNat_one, Nat.mod_eq_of_lt]
          have := limit.toNat_lt
          omega
        obtain ⟨a, b, h1, h2, h3⟩ := ih (n + 1) (fun x hx => hf x (List.mem_cons_of_mem _ hx)) (by rw [UInt64.le_iff_toNat_le, hn1]; omega)
        refine ⟨e :: a, b, by rw [h1]; rfl, ?_, fun hb => ?_⟩
        · simp only [pageByKey, if_neg he, hfe, hg, h2, hits_cons]; simp
        · rw [hits_cons, hg]
          have := h3 hb
          rw [hn1] at this
          simp only [Option.map_some, Option.toList_some, List.length_append, List.length_cons, List.length_nil]
          omega

/-- Counting on after the page is full. -/
theorem pageByOffset_after {f : Bytes × Val → Option (Option α)} {g : Bytes × Val → Option α} {offset stop : UInt64} :
    ∀ (es : Store) (n : UInt64) (k : Bytes), (∀ e ∈ es, f e = some (g e)) → stop.toNat < n.toNat → n.toNat + (hits g es).length < 2 ^ 64 →
    ∃ m, pageByOffset f offset stop true n (some k) es = some ([], some k, m) ∧ m.toNat = n.toNat + (hits g es).length := by
  intro es
  induction es with
  | nil => intro n k _ _ _; exact ⟨n, rfl, by simp [hits]⟩
  | cons e es ih =>
    intro n k hf hn hb
    have hfe := hf e (List.mem_cons_self ..)
    have hnow : ¬ (offset ≤ n ∧ n < stop) := fun h => by rw [UInt64.lt_iff_toNat_lt] at h; omega
    have key : ∀ n' : UInt64, stop.toNat < n'.toNat → n'.toNat + (hits g es).length < 2 ^ 64 →
        n' = (if (g e).isSome then n + 1 else n) →
        ∃ m, pageByOffset f offset stop true n (some k) (e :: es) = some ([], some k, m) ∧ m.toNat = n'.toNat + (hits g es).length := by
      intro n' h1 h2 h3
      obtain ⟨m, h4, h5⟩ := ih n' k (fun x hx => hf x (List.mem_cons_of_mem _ hx)) h1 h2
      refine ⟨m, ?_, h5⟩
      simp only [pageByOffset, hfe, if_neg hnow, ← h3]
      by_cases hs : n' = stop + 1
      · rw [if_pos hs]; simp [h4]
      · rw [if_neg hs, h4]; simp
    rw [hits_cons] at hb ⊢
    cases hg : g e with
    | none =>
      rw [hg] at hb
      obtain ⟨m, h1, h2⟩ := key n hn (by simpa using hb) (by simp [hg])
      exact ⟨m, h1, by simpa using h2⟩
    | some x =>
      rw [hg] at hb
      simp only [Option.map_some, Option.toList_some, List.length_append, List.length_cons, List.length_nil] at hb ⊢
      have hn1 : (n + 1).toNat = n.toNat + 1 := by
        rw [UInt64.toNat_add, UInt64.toNat_one, Nat.mod_eq_of_lt]; omega
      obtain ⟨m, h1, h2⟩ := key (n + 1) (by omega) (by omega) (by simp [hg])
      exact ⟨m, h1, by omega⟩

/-- The page at an offset. -/
theorem pageByOffset_spec {f : Bytes × Val → Option (Option α)} {g : Bytes × Val → Option α} {offset stop : UInt64} {ct : Bool}
    (hstop : stop.toNat + 1 < 2 ^ 64) (hle : offset.toNat ≤ stop.toNat) :
    ∀ (es : Store) (n : UInt64), (∀ e ∈ es, f e = some (g e)) → n.toNat ≤ stop.toNat → n.toNat + (hits g es).length < 2 ^ 64 →
    ∃ es1 es2 m, es = es1 ++ es2 ∧
      pageByOffset f offset stop ct n none es = some (((hits g es1).drop (offset.toNat - n.toNat)).map (·.2), es2.head?.map (·.1), m) ∧
      (ct = true → m.toNat = n.toNat + (hits g es).length) ∧ n.toNat + (hits g es1).length ≤ stop.toNat ∧
      (es2 ≠ [] → n.toNat + (hits g es1).length = stop.toNat ∧ ∃ e t x, es2 = e :: t ∧ g e = some x) := by
  intro es
  induction es with
  | nil => intro n _ hn _; exact ⟨[], [], n, rfl, by simp [pageByOffset, hits], by simp [hits], by simpa [hits] using hn, fun h => absurd rfl h⟩
  | cons e es ih =>
    intro n hf hn hb
    have hfe := hf e (List.mem_cons_self ..)
    have hf' := fun x hx => hf x (List.mem_cons_of_mem e hx)
    have hs1 : (stop + 1).toNat = stop.toNat + 1 := by
      rw [UInt64.toNat_add, UInt64.toNat_one, Nat.mod_eq_of_lt]; omega
    rw [hits_cons] at hb
    cases hg : g e with
    | none =>
      rw [hg] at hb
      obtain ⟨a, b, m, h1, h2, h3, h4, h5⟩ := ih n hf' hn (by simpa using hb)
      have hne : n ≠ stop + 1 := fun h => by rw [h, hs1] at hn; omega
      refine ⟨e :: a, b, m, by rw [h1]; rfl, ?_, ?_, ?_, ?_⟩
      · simp [pageByOffset, hfe, hg, hne, h2, hits_cons]
      · intro hc; rw [hits_cons, hg]; simpa using h3 hc
      · rw [hits_cons, hg]; simpa using h4
      · intro hb'; rw [hits_cons, hg]; simpa using h5 hb'
    | some x =>
      rw [hg] at hb
      simp only [Option.map_some, Option.toList_some, List.length_append, List.length_cons, List.length_nil] at hb
      have hn1 : (n + 1).toNat = n.toNat + 1 := by
        rw [UInt64.toNat_add, UInt64.toNat_one, Nat.mod_eq_of_lt]; omega
      by_cases hs : n = stop
      · subst hs
        have hnow : ¬ (offset ≤ n ∧ n < n) := fun h => UInt64.lt_irrefl _ h.2
        cases ct with
        | false =>
          refine ⟨[], e :: es, n + 1, rfl, ?_, by simp, by simp [hits], fun _ => ⟨by simp [hits], e, es, x, rfl, hg⟩⟩
          simp [pageByOffset, hfe, hg, hits]
        | true =>
          obtain ⟨m, h1, h2⟩ := pageByOffset_after (f := f) (g := g) (offset := offset) (stop := n) es (n + 1) e.1 hf' (by omega) (by omega)
          refine ⟨[], e :: es, m, rfl, ?_, ?_, by simp [hits], fun _ => ⟨by simp [hits], e, es, x, rfl, hg⟩⟩
          · simp [pageByOffset, hfe, hg, hits, h1]
          · intro _
            rw [hits_cons, hg]
            simp only [Option.map_some, Option.toList_some, List.length_append, List.length_cons, List.length_nil]
            omega
      · have hlt : n.toNat < stop.toNat := by
          have : n.toNat ≠ stop.toNat := fun h => hs (UInt64.toNat_inj.1 h)
          omega
        have hne : n + 1 ≠ stop + 1 := fun h => by
          have := congrArg UInt64.toNat h
          rw [hn1, hs1] at this
          omega
        obtain ⟨a, b, m, h1, h2, h3, h4, h5⟩ := ih (n + 1) hf' (by omega) (by omega)
        refine ⟨e :: a, b, m, by rw [h1]; rfl, ?_, ?_, ?_, ?_⟩
        · by_cases ho : offset ≤ n
          · have ho' := UInt64.le_iff_toNat_le.1 ho
            have e1 : offset.toNat - (n + 1).toNat = 0 := by omega
            have e2 : offset.toNat - n.toNat = 0 := by omega
            rw [e1] at h2
            rw [e2]
            simp only [pageByOffset, hfe, hg, Option.isSome_some, if_true, hits_cons, if_pos (And.intro ho (UInt64.lt_iff_toNat_lt.2 hlt))]
            rw [if_neg hne, h2]
            simp
          · have ho' : ¬ offset.toNat ≤ n.toNat := fun h => ho (UInt64.le_iff_toNat_le.2 h)
            have e1 : offset.toNat - n.toNat = (offset.toNat - (n + 1).toNat) + 1 := by omega
            rw [e1]
            simp only [pageByOffset, hfe, hg, Option.isSome_some, if_true, hits_cons, if_neg (fun h : offset ≤ n ∧ n < stop => ho h.1)]
            rw [if_neg hne, h2]
            simp
        · intro hc; rw [hits_cons, hg]
          have := h3 hc
          simp only [Option.map_some, Option.toList_some, List.length_append, List.length_cons, List.length_nil]
          omega
        · rw [hits_cons, hg]
          simp only [Option.map_some, Option.toList_some, List.length_append, List.length_cons, List.length_nil]
          omega
        · intro hb'
          obtain ⟨g1, g2⟩ := h5 hb'
          refine ⟨?_, g2⟩
          rw [hits_cons, hg]
          simp only [Option.map_some, Option.toList_some, List.length_append, List.length_cons, List.length_nil]
          omega

/-- The entries in the order in which they are visited. -/
def visited (store : Store) (rev : Bool) : Store := if rev then store.reverse else store

theorem entriesFrom_nil (store : Store) (rev : Bool) : entriesFrom store [] rev = some (visited store rev) := by
  cases rev with
  | true => simp [entriesFrom, visited]
  | false => simp [entriesFrom, visited]

theorem entriesFrom_split {store es1 es2 : Store} {e : Bytes × Val} {rev : Bool} (ho : Ordered store) (hk : e.1 ≠ [])
    (h : visited store rev = es1 ++ e :: es2) (hr : rev = true → es1 ≠ []) : entriesFrom store e.1 rev = some (e :: es2) := by
  cases rev with
  | false =>
    simp only [visited, Bool.false_eq_true, if_false] at h
    subst h
    unfold Ordered at ho
    rw [List.pairwise_append] at ho
    obtain ⟨_, h2, h3⟩ := ho
    simp only [entriesFrom, Bool.false_eq_true, if_false, List.filter_append]
    have e1 : es1.filter (fun x => !decide (x.1 < e.1)) = [] := by
      rw [List.filter_eq_nil_iff]
      intro x hx
      simpa using h3 x hx e (List.mem_cons_self ..)
    have e2 : (e :: es2).filter (fun x => !decide (x.1 < e.1)) = e :: es2 := by
      rw [List.filter_eq_self]
      intro x hx
      rcases List.mem_cons.1 hx with rfl | hx
      · simp
      · have := (List.pairwise_cons.1 h2).1 x hx
        simpa using List.lt_asymm this
    rw [e1, e2]; rfl
  | true =>
    have hst : store = es2.reverse ++ e :: es1.reverse := by
      have := congrArg List.reverse h
      simpa [visited] using this
    have hne := hr rfl
    obtain ⟨d, t, hdt⟩ : ∃ d t, es1.reverse = d :: t := by
      cases hh : es1.reverse with
      | nil => rw [List.reverse_eq_nil_iff] at hh; exact absurd hh hne
      | cons d t => exact ⟨d, t, rfl⟩
    rw [hdt] at hst
    subst hst
    unfold Ordered at ho
    rw [List.pairwise_append] at ho
    obtain ⟨h1, h2, h3⟩ := ho
    obtain ⟨h4, h5⟩ := List.pairwise_cons.1 h2
    obtain ⟨h6, h7⟩ := List.pairwise_cons.1 h5
    have e1 : (es2.reverse ++ e :: d :: t).filter (fun x => !decide (x.1 < e.1)) = e :: d :: t := by
      rw [List.filter_append]
      have e1 : es2.reverse.filter (fun x => !decide (x.1 < e.1)) = [] := by
        rw [List.filter_eq_nil_iff]
        intro x hx
        simpa using h3 x hx e (List.mem_cons_self ..)
      have e2 : (e :: d :: t).filter (fun x => !decide (x.1 < e.1)) = e :: d :: t := by
        rw [List.filter_eq_self]
        intro x hx
        rcases List.mem_cons.1 hx with rfl | hx
        · simp
        · simpa using List.lt_asymm (h4 x hx)
      rw [e1, e2]; rfl
    have e2 : (es2.reverse ++ e :: d :: t).filter (fun x => decide (x.1 < d.1)) = es2.reverse ++ [e] := by
      rw [List.filter_append]
      have e1 : es2.reverse.filter (fun x => decide (x.1 < d.1)) = es2.reverse := by
        rw [List.filter_eq_self]
        intro x hx
        simpa using h3 x hx d (by simp)
      have e2 : (e :: d :: t).filter (fun x => decide (x.1 < d.1)) = [e] := by
        rw [List.filter_cons_of_pos (by simpa using h4 d (by simp)), List.filter_cons_of_neg (by simp)]
        congr 1
        rw [List.filter_eq_nil_iff]
        intro x hx
        simpa using List.lt_asymm (h6 x hx)
      rw [e1, e2]
    simp only [entriesFrom, if_true, if_neg hk, e1, e2]
    simp

theorem defaults_eq (r : PageReq) : (defaults r).key = r.key ∧ (defaults r).offset = r.offset ∧ (defaults r).reverse = r.reverse ∧
    (defaults r).limit.toNat = effectiveLimit r ∧ ((defaults r).countTotal = true ↔ r.countTotal = true ∨ r.limit = 0) ∧
    1 ≤ effectiveLimit r := by
  unfold defaults effectiveLimit
  by_cases h : r.limit = 0
  · simp [h]
  · have : r.limit.toNat ≠ 0 := fun e => h (UInt64.toNat_inj.1 (by simpa using e))
    simp only [h, or_false, if_false]
    exact ⟨trivial, trivial, trivial, trivial, trivial, by omega⟩

/-- What a query has to satisfy. -/
structure Pageable (f : Bytes × Val → Option (Option α)) (g : Bytes × Val → Option α) (store : Store) : Prop where
  ordered : Ordered store
  keys : ∀ e ∈ store, e.1 ≠ []
  total : ∀ e ∈ store, f e = some (g e)
  few : (hits g store).length < 2 ^ 64

variable {f : Bytes × Val → Option (Option α)} {g : Bytes × Val → Option α} {store : Store}

theorem mem_visited {rev : Bool} {e : Bytes × Val} : e ∈ visited store rev ↔ e ∈ store := by
  unfold visited; split <;> simp

theorem hits_visited (rev : Bool) : (hits g (visited store rev)).map (·.2) =
    if rev then ((hits g store).map (·.2)).reverse else (hits g store).map (·.2) := by
  cases rev with
  | false => rfl
  | true => simp [visited, hits, List.filterMap_reverse]

/-- The page from the key of a visited entry on. -/
theorem Pageable.fromKey (h : Pageable f g store) {es1 es2 : Store} {e : Bytes × Val} {r : PageReq}
    (hv : visited store r.reverse = es1 ++ e :: es2) (hr : r.reverse = true → es1 ≠ []) (hkey : r.key = e.1) (hoff : r.offset = 0) :
    ∃ a b, e :: es2 = a ++ b ∧ paginate f store r = some ⟨(hits g a).map (·.2), b.head?.map (·.1), 0⟩ ∧ (b ≠ [] → a ≠ []) := by
  obtain ⟨d1, d2, d3, d4, _, d6⟩ := defaults_eq r
  have hmem : ∀ x ∈ e :: es2, x ∈ store := fun x hx => by
    rw [← mem_visited (rev := r.reverse), hv]; exact List.mem_append_right _ hx
  have hk := h.keys e (hmem e (List.mem_cons_self ..))
  obtain ⟨a, b, h1, h2, h3⟩ := pageByKey_spec (f := f) (g := g) (limit := (defaults r).limit) (e :: es2) 0
    (fun x hx => h.total x (hmem x hx)) (by rw [UInt64.le_iff_toNat_le]; simp)
  refine ⟨a, b, h1, ?_, fun hb ha => ?_⟩
  · unfold paginate
    simp only
    rw [d1, d2, d3, hkey, hoff, if_neg (by simp), entriesFrom_split h.ordered hk hv hr]
    simp only [Option.bind_some]
    rw [if_pos hk, h2]
    rfl
  · have := h3 hb
    rw [ha] at this
    simp [hits] at this
    omega

theorem Pageable.walk_exists (h : Pageable f g store) : ∀ (n : Nat) (es1 es2 : Store) (e : Bytes × Val) (r : PageReq), es2.length = n →
    visited store r.reverse = es1 ++ e :: es2 → (r.reverse = true → es1 ≠ []) → r.key = e.1 → r.offset = 0 →
    ∃ l, Walk (paginate f store) r l := by
  intro n
  induction n using Nat.strong_induction_on with
  | _ n ih =>
    intro es1 es2 e r hn hv hr hkey hoff
    obtain ⟨a, b, h1, h2, h3⟩ := h.fromKey hv hr hkey hoff
    cases b with
    | nil => exact ⟨_, .last h2 rfl⟩
    | cons x b =>
      have ha := h3 (by simp)
      have hlen := congrArg List.length h1
      simp only [List.length_cons, List.length_append] at hlen
      have : 1 ≤ a.length := List.length_pos_iff.2 ha
      obtain ⟨l, hl⟩ := ih b.length (by omega) (es1 ++ a) b x { key := x.1, reverse := r.reverse } rfl
        (by rw [hv, h1, List.append_assoc]) (fun _ => by simp [ha]) rfl rfl
      exact ⟨_, .next (r' := { key := x.1, reverse := r.reverse }) h2 rfl ⟨rfl, rfl, rfl⟩ hl⟩

theorem Pageable.walk_key (h : Pageable f g store) {r : PageReq} {l : List α} (hw : Walk (paginate f store) r l) :
    ∀ (es1 es2 : Store) (e : Bytes × Val), visited store r.reverse = es1 ++ e :: es2 → (r.reverse = true → es1 ≠ []) → r.key = e.1 → r.offset = 0 →
    l = (hits g (e :: es2)).map (·.2) := by
  induction hw with
  | last hq hk =>
    intro es1 es2 e hv hr hkey hoff
    obtain ⟨a, b, h1, h2, h3⟩ := h.fromKey hv hr hkey hoff
    rw [hq] at h2
    cases h2
    cases b with
    | nil => rw [h1, List.append_nil]
    | cons x b => simp at hk
  | next hq hk hr' _ ih =>
    intro es1 es2 e hv hr hkey hoff
    obtain ⟨a, b, h1, h2, h3⟩ := h.fromKey hv hr hkey hoff
    rw [hq] at h2
    cases h2
    cases b with
    | nil => simp at hk
    | cons x b =>
      simp only [List.head?_cons, Option.map_some, Option.some.injEq] at hk
      have ha := h3 (by simp)
      rw [ih (es1 ++ a) b x (by rw [hr'.2.2, hv, h1, List.append_assoc]) (fun _ => by simp [ha]) (by rw [hr'.1, hk]) hr'.2.1,
        h1, hits_append, List.map_append]

theorem Pageable.first (h : Pageable f g store) {r : PageReq} (hr : FirstPage r) :
    ∃ es1 es2 t, visited store r.reverse = es1 ++ es2 ∧
      paginate f store r = some ⟨((hits g es1).drop r.offset.toNat).map (·.2), es2.head?.map (·.1), t⟩ ∧
      (r.countTotal = true ∨ r.limit = 0 → t.toNat = (hits g store).length) ∧
      (hits g es1).length ≤ r.offset.toNat + effectiveLimit r ∧
      (es2 ≠ [] → (hits g es1).length = r.offset.toNat + effectiveLimit r ∧ ∃ e u x, es2 = e :: u ∧ g e = some x) := by
  obtain ⟨d1, d2, d3, d4, d5, d6⟩ := defaults_eq r
  have hir := hr.inRange
  have hstop : (r.offset + (defaults r).limit).toNat = r.offset.toNat + effectiveLimit r := by
    rw [UInt64.toNat_add, d4, Nat.mod_eq_of_lt]; omega
  have hlen : (hits g (visited store r.reverse)).length = (hits g store).length := by
    have := congrArg List.length (hits_visited (g := g) (store := store) r.reverse)
    rw [List.length_map] at this
    rw [this]
    split <;> simp
  obtain ⟨a, b, m, h1, h2, h3, h4, h5⟩ := pageByOffset_spec (f := f) (g := g) (offset := r.offset) (stop := r.offset + (defaults r).limit)
    (ct := (defaults r).countTotal) (by rw [hstop]; omega) (by rw [hstop]; omega) (visited store r.reverse) 0
    (fun e he => h.total e (mem_visited.1 he)) (by simp) (by rw [hlen]; simpa using h.few)
  refine ⟨a, b, if (defaults r).countTotal then m else 0, h1, ?_, fun hc => ?_, by rw [hstop] at h4; simpa using h4,
    fun hb => by rw [hstop] at h5; simpa using h5 hb⟩
  · unfold paginate
    simp only
    rw [d1, d2, d3, hr.noKey, if_neg (by simp), entriesFrom_nil]
    simp only [Option.bind_some, ne_eq, not_true_eq_false, if_false]
    rw [h2]
    simp
  · have hct := d5.2 hc
    rw [if_pos hct, h3 hct, hlen]
    simp

theorem Pageable.pages (h : Pageable f g store) : PagesThrough (paginate f store) ((hits g store).map (·.2)) where
  both := fun r hk ho => by
    have h1 : (defaults r).key = r.key ∧ (defaults r).offset = r.offset := by unfold defaults; split <;> exact ⟨rfl, rfl⟩
    have h2 : 0 < r.offset := by have h3 : r.offset.toNat ≠ 0 := (fun e => ho (UInt64.toNat_inj.1 e)); have h4 : (0 : UInt64).toNat < r.offset.toNat := (by have : (0 : UInt64).toNat = 0 := rfl; omega); exact UInt64.lt_iff_toNat_lt.2 h4
    unfold paginate
    simp only
    rw [h1.1, h1.2, if_pos ⟨h2, hk⟩]
  window := fun r hr => by
    obtain ⟨a, b, t, h1, h2, h3, h4, h5⟩ := h.first hr
    have hH := hits_visited (g := g) (store := store) r.reverse
    have hlen := congrArg List.length hH
    have hlen' : (hits g (visited store r.reverse)).length = (hits g store).length := by
      rw [List.length_map] at hlen
      rw [hlen]
      split <;> simp
    rw [h1, hits_append] at hH hlen'
    refine ⟨_, h2, ?_, ?_, fun hc => by rw [h3 hc, List.length_map]⟩
    · simp only
      rw [← hH, List.map_append, ← List.map_append]
      cases b with
      | nil =>
        have e : hits g ([] : Store) = [] := rfl
        rw [e, List.append_nil, ← List.map_drop, ← List.map_take, List.take_of_length_le (by rw [List.length_drop]; omega)]
      | cons x b =>
        obtain ⟨g1, _⟩ := h5 (by simp)
        rw [← List.map_drop, ← List.map_take, List.drop_append_of_le_length (by omega), List.take_append_of_le_length (by rw [List.length_drop]; omega),
          List.take_of_length_le (by rw [List.length_drop]; omega)]
    · simp only [List.length_map]
      rw [← hlen', List.length_append]
      cases b with
      | nil =>
        have e : hits g ([] : Store) = [] := rfl
        rw [e]
        simp
        omega
      | cons x b =>
        obtain ⟨g1, e, u, y, g2, g3⟩ := h5 (by simp)
        cases g2
        rw [hits_cons, g3]
        simp
        omega
  ends := fun r hr => by
    obtain ⟨a, b, t, h1, h2, h3, h4, h5⟩ := h.first hr
    cases b with
    | nil => exact ⟨_, .last h2 rfl⟩
    | cons x b =>
      obtain ⟨g1, _⟩ := h5 (by simp)
      have ha : a ≠ [] := by
        rintro rfl
        have := (defaults_eq r).2.2.2.2.2
        simp [hits] at g1
        omega
      obtain ⟨l, hl⟩ := h.walk_exists b.length a b x { key := x.1, reverse := r.reverse } rfl h1 (fun _ => ha) rfl rfl
      exact ⟨_, .next (r' := { key := x.1, reverse := r.reverse }) h2 rfl ⟨rfl, rfl, rfl⟩ hl⟩
  all := fun r l hr hw => by
    obtain ⟨a, b, t, h1, h2, h3, h4, h5⟩ := h.first hr
    have hH := hits_visited (g := g) (store := store) r.reverse
    rw [← hH, h1, hits_append]
    cases hw with
    | last hq hk =>
      rw [hq] at h2
      cases h2
      cases b with
      | nil =>
        have e : hits g ([] : Store) = [] := rfl
        rw [e, List.append_nil, List.map_drop]
      | cons x b => simp at hk
    | next hq hk hr' hw' =>
      rw [hq] at h2
      cases h2
      cases b with
      | nil => simp at hk
      | cons x b =>
        simp only [List.head?_cons, Option.map_some, Option.some.injEq] at hk
        obtain ⟨g1, _⟩ := h5 (by simp)
        have ha : a ≠ [] := by
          rintro rfl
          have := (defaults_eq r).2.2.2.2.2
          simp [hits] at g1
          omega
        have hw2 := h.walk_key hw' a b x (by rw [hr'.2.2, h1]) (fun _ => ha) (by rw [hr'.1, hk]) hr'.2.1
        rw [hw2, ← List.map_append, ← List.map_drop, List.drop_append_of_le_length (by omega)]

end Verif.Dex.Query
