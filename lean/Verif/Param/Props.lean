import Verif.Param.Lemmas
import Mathlib.Tactic.Ring
import Mathlib.Tactic.FieldSimp
import Mathlib.Data.Rat.Lemmas

/-!
# C27, C28, C29: parameter vectors, derivative slots, time derivatives
-/

namespace MrHyDE.Param

open Spec

variable {K : Type}

/-! ### C27 -/

/-- The usages documented for parameters. -/
def knownUsages : List String := ["inactive", "active", "stochastic", "discrete", "discretized"]

theorem setup_types_length (n : Nat) (es : List (Entry K)) (h : ∀ e ∈ es, e.usage ∈ knownUsages) :
    (setup n es).types.length = es.length := by
  simp only [setup]
  induction es with
  | nil => rfl
  | cons e es ih =>
    have he := h e (by simp)
    have ih' := ih (fun x hx => h x (by simp [hx]))
    have : ∃ c, usageCode e.usage = some c := by
      simp only [knownUsages, List.mem_cons, List.not_mem_nil, or_false] at he
      rcases he with he | he | he | he | he <;> rw [he] <;> exact ⟨_, rfl⟩
    obtain ⟨c, hc⟩ := this
    simp [List.filterMap_cons, hc, ih']

/-- **C27, any table.**  For every table in which each parameter has a type, and every family of vectors with
one vector of the right length for each time index: the update succeeds, reading the active parameters gives back
exactly these vectors, reading parameters of any other type gives what it gave before, and the parameters of other
types are untouched; the shape of the table does not change. -/
theorem C27_table (T : Table K) (news : List (List K))
    (hlen : ∀ row ∈ T.vals, row.length ≤ T.types.length) (hn : news.length = T.vals.length)
    (hm : ∀ (i : Nat) (row : List (List K)) (nv : List K), T.vals[i]? = some row → news[i]? = some nv →
      nv.length = count 1 T.types row) :
    ∃ T', updateOpt T news = some T' ∧ getAll T' 1 = some news ∧
      (∀ ty : Int, ty ≠ 1 → getAll T' ty = getAll T ty) ∧
      T'.types = T.types ∧ T'.vals.length = T.vals.length ∧
      ∀ (i : Nat) (row : List (List K)), T.vals[i]? = some row → ∃ row', T'.vals[i]? = some row' ∧
        SameShape row' row ∧ ∀ k : Nat, T.types[k]? ≠ some 1 → row'[k]? = row[k]? := by
  obtain ⟨rs, h1, h2, h3⟩ := updTimes_spec T.types news T.vals 0 hlen (fun k row hk => by
    have hk' : k < news.length := by
      rw [hn]; exact (List.getElem?_eq_some_iff.mp hk).1
    exact ⟨news[k], by simp [hk'], hm k row _ hk (by simp [hk'])⟩)
  refine ⟨{ T with vals := rs }, by simp [updateOpt, h1], ?_, ?_, rfl, h2, ?_⟩
  · apply mapM_option_eq
    · simp [h2, hn]
    · intro k x hx
      have hk : k < T.vals.length := by
        rw [← h2]; exact (List.getElem?_eq_some_iff.mp hx).1
      obtain ⟨r, nv, a1, a2, a3, _, _⟩ := h3 k T.vals[k] (by simp)
      have : x = r := by
        have hx' : rs[k]? = some x := hx
        rw [a1] at hx'
        exact (Option.some.inj hx').symm
      subst this
      exact ⟨nv, by simpa using a2, a3⟩
  · intro ty hty
    apply mapM_option_congr
    · exact h2
    · intro k x y hx hy
      obtain ⟨r, nv, a1, a2, a3, a4, a5⟩ := h3 k y hy
      have : x = r := by
        have hx' : rs[k]? = some x := hx
        rw [a1] at hx'
        exact (Option.some.inj hx').symm
      subst this
      refine getRow_of_same ty y x T.types ?_ ?_
      · have := congrArg List.length a4
        simpa using this
      · intro q hq
        refine a5 q ?_
        rw [hq]
        intro hc
        exact hty (Option.some.inj hc)
  · intro i row hi
    obtain ⟨r, nv, a1, a2, a3, a4, a5⟩ := h3 i row hi
    exact ⟨r, a1, a4, a5⟩

/-- **C27** (partial: every usage is one of the documented ones).  After setup from any list of parameters, an
update of the active parameters with vectors of matching length (one for each time index) succeeds and reading
the active parameters gives these vectors back; reading the parameters of any other type is unaffected. -/
theorem C27_partial (n : Nat) (es : List (Entry K)) (hes : ∀ e ∈ es, e.usage ∈ knownUsages)
    (news : List (List K)) (hn : news.length = (if haveDynamic es then n else 1))
    (hm : ∀ nv ∈ news, nv.length = numActive es) :
    ∃ T', updateOpt (setup n es) news = some T' ∧ getAll T' 1 = some news ∧
      ∀ ty : Int, ty ≠ 1 → getAll T' ty = getAll (setup n es) ty := by
  have hrow : ∀ (i : Nat) (row : List (List K)), (setup n es).vals[i]? = some row → row = es.map Entry.vals := by
    intro i row hi
    simp only [setup] at hi
    split_ifs at hi with hd
    · exact (List.mem_replicate.mp (List.mem_of_getElem? hi)).2
    · have := List.mem_of_getElem? hi
      simpa using this
  have hcount : count 1 (setup n es).types (es.map Entry.vals) = numActive es := by
    simp only [setup]
    clear hn hm hrow
    induction es with
    | nil => simp [count, numActive]
    | cons e es ih =>
      have he := hes e (by simp)
      have ih' := ih (fun x hx => hes x (by simp [hx]))
      simp only [knownUsages, List.mem_cons, List.not_mem_nil, or_false] at he
      rcases he with he | he | he | he | he <;>
        simp_all [List.filterMap_cons, usageCode, numActive, count_cons, List.filter_cons]
  obtain ⟨T', h1, h2, h3, _⟩ := C27_table (setup n es) news (fun row hr => by
      obtain ⟨i, hi, rfl⟩ := List.getElem_of_mem hr
      rw [hrow i _ (List.getElem?_eq_getElem hi), setup_types_length n es hes]
      simp)
    (by rw [hn]; simp only [setup]; split_ifs <;> simp)
    (fun i row nv hi hnv => by
      rw [hrow i row hi, hcount]
      exact hm nv (List.mem_of_getElem? hnv))
  exact ⟨T', h1, h2, h3⟩

/-- Three parameters, two of them active, two time indices. -/
def sampleEntries : List (Entry Int) :=
  [⟨"active", [1, 2], true⟩, ⟨"inactive", [5], false⟩, ⟨"active", [7], false⟩]

/-- A case of `C27_partial`. -/
example : (updateOpt (setup 2 sampleEntries) [[10, 20, 30], [40, 50, 60]]).bind (fun T => getAll T 1)
    = some [[10, 20, 30], [40, 50, 60]] := by decide

/-- **C27, the update at one time index.**  `updateParams(vector, type)` followed by reading the parameters of
that type at the same time index gives the vector back, and every other time index is untouched. -/
theorem C27_at (T : Table K) (new : List K) (ty : Int) (idx : Nat) (row : List (List K))
    (hi : T.vals[idx]? = some row) (hlen : row.length ≤ T.types.length)
    (hm : new.length = count ty T.types row) :
    ∃ T', updateAt T new ty idx = some T' ∧ getAt T' ty idx = some new ∧
      (∀ ty' : Int, ty' ≠ ty → getAt T' ty' idx = getAt T ty' idx) ∧
      ∀ (i : Nat) (ty' : Int), i ≠ idx → getAt T' ty' i = getAt T ty' i := by
  obtain ⟨r, h1, h2, h3, h4⟩ := updRow_getRow ty new row T.types 0 hlen (by omega)
  have hidx : idx < T.vals.length := (List.getElem?_eq_some_iff.mp hi).1
  refine ⟨{ T with vals := T.vals.set idx r }, by simp [updateAt, hi, h1], ?_, ?_, ?_⟩
  · simp [getAt, hidx, h2, ← hm]
  · intro ty' hty
    simp only [getAt, List.getElem?_set, hidx, hi, if_true]
    refine getRow_of_same ty' row r T.types ?_ ?_
    · have := congrArg List.length h3
      simpa using this
    · intro q hq
      refine h4 q ?_
      rw [hq]
      intro hc
      exact hty (Option.some.inj hc)
  · intro i ty' hne
    simp [getAt, List.getElem?_set, Ne.symm hne]

/-- A case of `C27_at`. -/
example : (updateAt (setup 2 sampleEntries) [10, 20, 30] 1 1).bind (fun T => getAt T 1 1) = some [10, 20, 30] ∧
    (updateAt (setup 2 sampleEntries) [10, 20, 30] 1 1).bind (fun T => getAt T 1 0) = some [1, 2, 7] := by decide

/-- The words `updateParams(vector, string)` understands. [specification, no code] -/
def words : List String := ["inactive", "active", "stochastic", "discrete"]

theorem setup_types_get (n : Nat) : ∀ (es : List (Entry K)), (∀ e ∈ es, e.usage ∈ knownUsages) → ∀ k : Nat,
    (setup n es).types[k]? = es[k]?.bind (fun e => usageCode e.usage)
  | [], _, k => by simp [setup]
  | e :: es, h, k => by
    have ih := setup_types_get n es (fun x hx => h x (by simp [hx]))
    have he := h e (by simp)
    have : ∃ c, usageCode e.usage = some c := by
      simp only [knownUsages, List.mem_cons, List.not_mem_nil, or_false] at he
      rcases he with he | he | he | he | he <;> rw [he] <;> exact ⟨_, rfl⟩
    obtain ⟨c, hc⟩ := this
    simp only [setup] at ih ⊢
    rw [List.filterMap_cons, hc]
    cases k with
    | zero => simp [hc]
    | succ k => simpa using ih k

theorem usageCode_request (u s : String) (hs : s ∈ words) : usageCode u = some (requestCode s) ↔ u = s := by
  simp only [words, List.mem_cons, List.not_mem_nil, or_false] at hs
  constructor
  · intro h
    unfold usageCode at h
    rcases hs with rfl | rfl | rfl | rfl <;> simp [requestCode] at h <;> split_ifs at h <;> simp_all
  · rintro rfl
    rcases hs with rfl | rfl | rfl | rfl <;> rfl

/-- **C27, by usage** (partial: documented usages).  Updating the parameters declared with one of the words
"inactive", "active", "stochastic", "discrete" at one time index changes no value of a parameter declared with another
usage, at this or any other time index, and keeps all shapes; if the vector has one entry for each component of the
parameters so declared, the update succeeds and reading them gives the vector back. -/
theorem C27_usage_partial (n : Nat) (es : List (Entry K)) (hes : ∀ e ∈ es, e.usage ∈ knownUsages)
    (s : String) (hs : s ∈ words) (new : List K) (idx : Nat) (hidx : idx < (setup n es).vals.length)
    (hnew : new.length = ((es.filter (fun e => e.usage == s)).map (fun e => e.vals.length)).sum) :
    ∃ T', updateAt (setup n es) new (requestCode s) idx = some T' ∧ getAt T' (requestCode s) idx = some new ∧
      (∀ i : Nat, i ≠ idx → T'.vals[i]? = (setup n es).vals[i]?) ∧
      ∃ row' : List (List K), T'.vals[idx]? = some row' ∧ SameShape row' (es.map Entry.vals) ∧
        ∀ (k : Nat) (e : Entry K), es[k]? = some e → e.usage ≠ s → row'[k]? = some e.vals := by
  have hrow : (setup n es).vals[idx]? = some (es.map Entry.vals) := by
    rw [List.getElem?_eq_getElem hidx]
    have := List.getElem_mem hidx
    simp only [setup] at this ⊢
    split_ifs at this ⊢ with hd
    · rw [(List.mem_replicate.mp this).2]
    · rw [List.mem_singleton.mp this]
  have hcount : count (requestCode s) (setup n es).types (es.map Entry.vals) =
      ((es.filter (fun e => e.usage == s)).map (fun e => e.vals.length)).sum := by
    simp only [setup]
    clear hnew hrow hidx
    induction es with
    | nil => simp [count]
    | cons e es ih =>
      have he := hes e (by simp)
      have ih' := ih (fun x hx => hes x (by simp [hx]))
      have hc : ∃ c, usageCode e.usage = some c := by
        simp only [knownUsages, List.mem_cons, List.not_mem_nil, or_false] at he
        rcases he with he | he | he | he | he <;> rw [he] <;> exact ⟨_, rfl⟩
      obtain ⟨c, hc⟩ := hc
      have key := usageCode_request e.usage s hs
      rw [List.filterMap_cons, hc]
      simp only [List.map_cons, count_cons, ih']
      by_cases hu : e.usage = s
      · have : c = requestCode s := by
          have := key.mpr hu
          rw [hc] at this; exact Option.some.inj this
        simp [hu, this]
      · have : c ≠ requestCode s := by
          intro hcc
          exact hu (key.mp (by rw [hc, hcc]))
        simp [hu, this]
  have hlen : (es.map Entry.vals).length ≤ (setup n es).types.length := by
    rw [setup_types_length n es hes]; simp
  obtain ⟨r, h1, h2, h3, h4⟩ := updRow_getRow (requestCode s) new (es.map Entry.vals) (setup n es).types 0 hlen
    (by rw [hcount]; omega)
  refine ⟨{ setup n es with vals := (setup n es).vals.set idx r }, by simp [updateAt, hrow, h1], ?_, ?_, r, ?_, h3, ?_⟩
  · simp only [getAt, List.getElem?_set, hidx, if_true]
    rw [hcount, ← hnew] at h2
    simpa using h2
  · intro i hi
    simp [List.getElem?_set, Ne.symm hi]
  · simp [List.getElem?_set, hidx]
  · intro k e hk hne
    rw [h4 k ?_]
    · simp [hk]
    · rw [setup_types_get n es hes k, hk]
      intro hc
      exact hne ((usageCode_request e.usage s hs).mp hc)

/-- A case of `C27_usage_partial`: the stochastic parameter is updated, the discrete and active ones are not. -/
example : (updateAt (setup 1 [⟨"active", [1, 2], false⟩, ⟨"stochastic", [5], false⟩, ⟨"discrete", [7], false⟩] : Table Int)
    [9] (requestCode "stochastic") 0) = some ⟨[1, 2, 3], [[[1, 2], [9], [7]]]⟩ := by decide

/-- **C27, an unknown word changes nothing** (and is not reported). -/
theorem C27_unknown_word (n : Nat) (es : List (Entry K)) (hes : ∀ e ∈ es, e.usage ∈ knownUsages) (s : String)
    (hs : s ∉ words) (new : List K) (idx : Nat) : ∃ T', updateAt (setup n es) new (requestCode s) idx = some T' ∧
      T'.vals = (setup n es).vals := by
  have hneg : requestCode s = -1 := by
    simp only [words, List.mem_cons, List.not_mem_nil, or_false, not_or] at hs
    simp [requestCode, hs]
  have hty : ∀ t ∈ (setup n es).types, t ≠ -1 := by
    intro t ht
    simp only [setup, List.mem_filterMap] at ht
    obtain ⟨e, he, hc⟩ := ht
    have := hes e he
    simp only [knownUsages, List.mem_cons, List.not_mem_nil, or_false] at this
    rcases this with h | h | h | h | h <;> rw [h] at hc <;> simp [usageCode] at hc <;> omega
  unfold updateAt
  cases hrow : (setup n es).vals[idx]? with
  | none => exact ⟨_, rfl, rfl⟩
  | some row =>
    have hl : row.length ≤ (setup n es).types.length := by
      rw [setup_types_length n es hes]
      have hm := List.mem_of_getElem? hrow
      simp only [setup] at hm
      split_ifs at hm
      · rw [(List.mem_replicate.mp hm).2]; simp
      · rw [List.mem_singleton.mp hm]; simp
    have key : ∀ (row : List (List K)) (ts : List Int) (p : Nat), (∀ t ∈ ts, t ≠ -1) → row.length ≤ ts.length →
        updRow (-1) (some new) p ts row = some row := by
      intro row
      induction row with
      | nil => intro ts p _ _; simp [updRow]
      | cons c cs ih =>
        intro ts p ht hl
        cases ts with
        | nil => simp at hl
        | cons t ts =>
          have := ih ts p (fun x hx => ht x (by simp [hx])) (by simpa using hl)
          simp [updRow, ht t (by simp), this]
    refine ⟨{ setup n es with vals := (setup n es).vals.set idx row },
      by simp only [hneg, key row _ 0 hty hl, Option.map_some], ?_⟩
    obtain ⟨h, he⟩ := List.getElem?_eq_some_iff.mp hrow
    subst he
    simp

/-- **C27/C53, number of time indices.**  There is one state of the parameters for each time step if an *active*
parameter is declared dynamic, and one for all steps otherwise: a dynamic declaration of an inactive, stochastic or
discrete parameter has no effect. -/
theorem C27_states (n : Nat) (es : List (Entry K)) :
    ((∃ e ∈ es, e.usage = "active" ∧ e.dynamic = true) → (setup n es).vals.length = n) ∧
    ((∀ e ∈ es, e.dynamic = true → e.usage ≠ "active") → (setup n es).vals.length = 1) := by
  constructor
  · rintro ⟨e, he, hu, hd⟩
    have : haveDynamic es = true := by
      simp only [haveDynamic, List.any_eq_true]
      exact ⟨e, he, by simp [hu, hd]⟩
    simp [setup, this]
  · intro h
    have : haveDynamic es = false := by
      simp only [haveDynamic, List.any_eq_false]
      intro e he hc
      simp only [Bool.and_eq_true, beq_iff_eq] at hc
      exact h e he hc.2 hc.1
    simp [setup, this]

/-- A case of the second part: a dynamic stochastic parameter, five steps, one state. -/
example : (setup 5 [⟨"stochastic", [1], true⟩, ⟨"active", [2], false⟩] : Table Int).vals.length = 1 := by decide

/-- **C27, violated** (no error is reported for an unknown usage).  With a misspelt usage the types are shifted
against the parameters: the active parameter `b` keeps its value, the vector meant for it goes to `a`, and the
loop then reads the type of `b`, which does not exist. -/
theorem C27_violated :
    (setup 1 [⟨"Inactive", [1], false⟩, ⟨"active", [2], false⟩] : Table Int) = ⟨[1], [[[1], [2]]]⟩ ∧
    numActive ([⟨"Inactive", [1], false⟩, ⟨"active", [2], false⟩] : List (Entry Int)) = 1 ∧
    updateOpt (setup 1 [⟨"Inactive", [1], false⟩, ⟨"active", [2], false⟩] : Table Int) [[9]] = none := by decide

/-- **C27, violated** (dynamic parameters through the string interface).  `updateParams(v, "active")` followed by
`getParams("active")` does not give `v` back: the second call concatenates all time indices. -/
theorem C27_flat_violated :
    (updateAt (setup 2 sampleEntries) [10, 20, 30] 1 0).bind (fun T => getFlat T 1)
      = some [10, 20, 30, 1, 2, 7] := by decide

/-! ### C28 -/

/-- **C28.**  With at least as many derivative slots as active components (see `C54` for the choice of the type):
there is one slot for each component of each active parameter, namely the position of the component in the vector
of active parameters; different components have different slots, every slot below the number of active components
is used, the seeded value has derivative one in its slot and zero in the others; parameters of other types carry no
derivative; values are unchanged. -/
theorem C28 [Zero K] [One K] (types : List Int) (row : List (List K)) (N : Nat)
    (hlen : row.length ≤ types.length) (hN : count 1 types row ≤ N) :
    ∃ v, getRow 1 types row = some v ∧ v.length = count 1 types row ∧
    ∃ σ : Nat → Nat → Nat,
      (∀ i j : Nat, HasComp 1 types row i j →
        ((slots 0 types row)[i]?.bind (fun s => s[j]?)) = some (σ i j) ∧ σ i j < v.length ∧
        v[σ i j]? = comp row i j ∧
        ∀ x : K, (sacado true N 1 (σ i j) x).val = x ∧
          ∀ s : Nat, (sacado true N 1 (σ i j) x).dx s = if s = σ i j then 1 else 0) ∧
      (∀ i j i' j' : Nat, HasComp 1 types row i j → HasComp 1 types row i' j' → σ i j = σ i' j' →
        i = i' ∧ j = j') ∧
      (∀ s : Nat, s < v.length → ∃ i j, HasComp 1 types row i j ∧ σ i j = s) ∧
      (∀ (t : Int) (sl s : Nat) (x : K), t ≠ 1 → (sacado true N t sl x).val = x ∧ (sacado true N t sl x).dx s = 0) := by
  obtain ⟨v, h1, h2, h3⟩ := getRow_some 1 row types hlen
  refine ⟨v, h1, h2, fun i j => before 1 types row i + j, ?_, ?_, ?_, ?_⟩
  · intro i j hij
    have hlt := comp_pos_lt 1 types row i j hij
    refine ⟨?_, by rw [h2]; exact hlt, h3 i j hij, ?_⟩
    · have := slots_get row types 0 i j hij
      simpa using this
    · intro x
      have hN' : before 1 types row i + j < N := by omega
      exact ⟨by simp [sacado, AD.seed, hN'], fun s => by simp [sacado, AD.seed, hN']⟩
  · intro i j i' j' hij hij' he
    exact comp_pos_inj 1 types row i j i' j' hij hij' he
  · intro s hs
    rw [h2] at hs
    exact exists_comp 1 row types s hs
  · intro t sl s x ht
    simp [sacado, ht, AD.const]

/-- Without the request to seed nothing carries a derivative. -/
theorem C28_unseeded [Zero K] [One K] (N : Nat) (t : Int) (sl s : Nat) (x : K) :
    (sacado false N t sl x).val = x ∧ (sacado false N t sl x).dx s = 0 := by
  simp [sacado, AD.const]

/-- A case of `C28`: two active parameters around an inactive one. -/
example : slots 0 [1, 0, 1] [[1, 2], [5], [(7 : Int)]] = [[0, 1], [0], [2]] ∧
    count 1 [1, 0, 1] [[1, 2], [5], [(7 : Int)]] ≤ 4 := by decide

/-- The bound on the number of slots is needed: with fewer slots a component is silently left without
derivative. -/
theorem C28_few_slots [Zero K] [One K] (N slot : Nat) (h : N ≤ slot) (x : K) (s : Nat) :
    (sacado true N 1 slot x).dx s = 0 := by
  have : ¬ slot < N := by omega
  simp [sacado, this, AD.const]

/-! ### C54: the derivative type is large enough -/

theorem slotsOf_ge (maxDerivs ndr : Nat) (multiscale autotune : Bool) (h : ndr ≤ maxDerivs) :
    ndr ≤ slotsOf maxDerivs ndr multiscale autotune false := by
  unfold slotsOf
  cases autotune <;> cases multiscale <;> simp <;> first | exact h | skip
  split_ifs <;> omega

theorem foldl_max_ge (l : List Nat) (a : Nat) : a ≤ l.foldl max a ∧ ∀ x ∈ l, x ≤ l.foldl max a := by
  induction l generalizing a with
  | nil => simp
  | cons y l ih =>
    obtain ⟨h1, h2⟩ := ih (max a y)
    refine ⟨le_trans (le_max_left _ _) h1, ?_⟩
    intro x hx
    rcases List.mem_cons.mp hx with rfl | hx
    · exact le_trans (le_max_right _ _) h1
    · exact h2 x hx

theorem foldl_max_le (l : List Nat) (a m : Nat) (ha : a ≤ m) (h : ∀ x ∈ l, x ≤ m) : l.foldl max a ≤ m := by
  induction l generalizing a with
  | nil => simpa
  | cons y l ih =>
    exact ih (max a y) (max_le ha (h y (by simp))) (fun x hx => h x (by simp [hx]))

/-- **C54** (partial: not in the fully explicit mode).  If setup does not stop with the exception that
`MAXDERIVS` is too small, the derivative type selected for the run has a slot for every active parameter component
and for every degree of freedom of an element of each block. -/
theorem C54_partial (maxDerivs active : Nat) (blocks : List Nat) (hb : blocks ≠ [])
    (hd : ∀ b ∈ blocks, b ≤ maxDerivs) (multiscale autotune : Bool) (r : Nat)
    (h : required maxDerivs active blocks = some r) :
    active ≤ slotsOf maxDerivs r multiscale autotune false ∧
    ∀ b ∈ blocks, b ≤ slotsOf maxDerivs r multiscale autotune false := by
  unfold required at h
  split_ifs at h with hc
  injection h with h
  set l := blocks.map (fun b => if b < active then active else b) with hl
  have hle : r ≤ maxDerivs := by
    rw [← h]
    apply foldl_max_le _ _ _ (Nat.zero_le _)
    intro x hx
    rw [hl, List.mem_map] at hx
    obtain ⟨b, hb1, hb2⟩ := hx
    have := hd b hb1
    split_ifs at hb2 <;> omega
  have hge := slotsOf_ge maxDerivs r multiscale autotune hle
  have hmem : ∀ b ∈ blocks, b ≤ r ∧ active ≤ r := by
    intro b hb'
    have := (foldl_max_ge l 0).2 (if b < active then active else b) (by
      rw [hl]; exact List.mem_map.mpr ⟨b, hb', rfl⟩)
    rw [h] at this
    split_ifs at this <;> omega
  obtain ⟨b0, hb0⟩ := List.exists_mem_of_ne_nil blocks hb
  exact ⟨le_trans (hmem b0 hb0).2 hge, fun b hb' => le_trans (hmem b hb').1 hge⟩

/-- A case of `C54_partial`: twenty active components, elements with 8 and 27 degrees of freedom. -/
example : required 64 20 [8, 27] = some 27 ∧ slotsOf 64 27 false true false = 32 := by decide

/-- **C54, violated in the fully explicit mode:** no derivative type is selected although active parameters
exist (`C28_few_slots`: every component is left without derivative). -/
theorem C54_violated (maxDerivs active : Nat) (ha : 0 < active) (multiscale autotune : Bool) :
    ¬ active ≤ slotsOf maxDerivs active multiscale autotune true := by
  simp [slotsOf]
  omega

/-! ### C29 -/

section
variable [Field K]

/-- **C29** (partial: not at the last time index).  For a dynamic discretized parameter the time derivative is
the difference quotient at every index with a previous and a next state, and zero at index zero; for a parameter
that is not dynamic it is zero. -/
theorem C29_partial (dt : K) (ps : List K) (i : Nat) (a b : K)
    (h1 : 0 < i) (h2 : i + 1 < ps.length) (ha : ps[i]? = some a) (hb : ps[i - 1]? = some b) :
    discDot true i dt ps = some ((a - b) / dt) := by
  simp only [discDot, if_true]
  rw [if_pos ⟨h1, h2⟩, ha, hb]
  simp only [Option.some.injEq]
  rw [sub_div]
  ring

theorem C29_zero (dt : K) (ps : List K) (i : Nat) :
    discDot true 0 dt ps = some 0 ∧ discDot false i dt ps = some 0 := by
  simp [discDot]

/-- A case of `C29_partial`. -/
example : discDot true 1 (1/2 : ℚ) [1, 3, 4] = some 4 := by
  simp [discDot]; norm_num

/-- **C29, violated:** at the last time index the time derivative is zero for every parameter history. -/
theorem C29_violated (dt : K) (ps : List K) (i : Nat) (h : i + 1 = ps.length) :
    discDot true i dt ps = some 0 := by
  simp only [discDot, if_true]
  rw [if_neg]
  omega

/-- The claim fails for a concrete history: a parameter that grows by one in each step has derivative zero in
the last step. -/
theorem C29_violated_concrete : discDot true 2 (1 : ℚ) [0, 1, 2] = some 0 ∧ ((2 : ℚ) - 1) / 1 ≠ 0 := by
  refine ⟨C29_violated _ _ _ rfl, by norm_num⟩

end

end MrHyDE.Param
