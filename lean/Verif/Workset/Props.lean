import Verif.Workset.Lemmas3
import Mathlib.Algebra.Ring.Int.Defs
import Mathlib.Tactic.Ring

set_option linter.unusedSectionVars false

namespace MrHyDE.Workset

/-! ### C18: classification of field names -/

/-- C18 (partial: only for variable names that do not contain `grad`, `div`, `curl`, `_t` or a
bracket): every quantity of the variable is classified as what it is. -/
theorem C18_plain_names_partial {v : Str} (hv : PlainName v) (q : Qty) :
    dtype (q.label v) = q.kind ∧ component (q.label v) = q.comp :=
  ⟨dtype_label hv q, component_label hv.2.2.2.2.2.2 q⟩

example : PlainName "pressure".toList := by
  refine ⟨?_, ?_, ?_, ?_, ?_, ?_, ?_⟩ <;> decide

example : dtype ((Qty.grad .y).label "pressure".toList) = .grad ∧
    component ((Qty.grad .y).label "pressure".toList) = 1 := by decide

/-- C18 is violated: the value, the gradient, the divergence and the curl of every variable whose
name contains `_t` are classified as time derivatives. -/
theorem C18_time_violated (a b : Str) (q : Qty) :
    dtype (q.label (a ++ "_t".toList ++ b)) = .time := by
  have h : has "_t".toList (q.label (a ++ "_t".toList ++ b)) = true := by
    apply has_true
    cases q with
    | val => exact ⟨a, b, rfl⟩
    | valc x => exact ⟨a, b ++ x.text, by simp [Qty.label]⟩
    | grad x => exact ⟨"grad(".toList ++ a, b ++ ")".toList ++ x.text, by simp [Qty.label]⟩
    | div => exact ⟨"div(".toList ++ a, b ++ ")".toList, by simp [Qty.label]⟩
    | curl => exact ⟨"curl(".toList ++ a, b ++ ")".toList, by simp [Qty.label]⟩
    | curlc x => exact ⟨"curl(".toList ++ a, b ++ ")".toList ++ x.text, by simp [Qty.label]⟩
    | dt => exact ⟨a, b ++ "_t".toList, by simp [Qty.label]⟩
    | dtc x => exact ⟨a, b ++ "_t".toList ++ x.text, by simp [Qty.label]⟩
  unfold dtype
  rw [h]
  rfl

/-- The variable `T_top` is such a name. -/
example : "T_top".toList = "T".toList ++ "_t".toList ++ "op".toList := by decide

/-- C18 is violated: the plain value of every variable whose name contains `curl` is never
classified as a value. -/
theorem C18_curl_violated (a b : Str) : dtype (a ++ "curl".toList ++ b) ≠ .plain := by
  have h : has "curl".toList (a ++ "curl".toList ++ b) = true := has_true ⟨a, b, rfl⟩
  unfold dtype
  rw [h]
  simp only [if_true]
  split
  · decide
  split
  · decide
  split
  · decide
  split
  · decide
  · decide

/-- C18 is violated: likewise for `div` and `grad`. -/
theorem C18_grad_violated (a b w : Str) (hw : w = "grad".toList ∨ w = "div".toList) :
    dtype (a ++ w ++ b) ≠ .plain := by
  unfold dtype
  rcases hw with rfl | rfl
  · have h : has "grad".toList (a ++ "grad".toList ++ b) = true := has_true ⟨a, b, rfl⟩
    rw [h]
    simp only [if_true]
    repeat' split
    all_goals decide
  · have h : has "div".toList (a ++ "div".toList ++ b) = true := has_true ⟨a, b, rfl⟩
    rw [h]
    simp only [if_true]
    repeat' split
    all_goals decide

/-! ### C41: fields are never stale -/

section
variable {K : Type} [Semiring K]

/-- C41 (partial: plain names; a time derivative only of a solution variable in a transient run; the
tables must fit the arrays and a parameter must have a number below the number of variables of the
first set).  After any sequence of loads of new data, moves and requests, a request in the volume
returns the finite element function of the current data, and asking again returns the same and
changes nothing. -/
theorem C41_volume_partial {dim : Nat} {es : List Entry} (hn : (es.map Entry.name).Nodup)
    (hp : ∀ e ∈ es, PlainName e.name) (env0 : Env K) (loc0 : Loc) (ops : List (Op K)) (s : State K)
    (hrun : run (fresh dim es env0 loc0) ops = some s) (hloc : s.loc = .volume)
    {e : Entry} (he : e ∈ es) {q : Qty} (hq : q ∈ volQty dim e.btype)
    (htime : q.kind = .time → s.env.transient = true ∧ e.vtype = .solution)
    (hidx : ∃ row, s.env.solIndex[e.set]? = some row ∧ e.var < row.length)
    {c : Nat → Nat → K} (hc : coefOf s.env e q = some c)
    {bid : Nat} (hbid : basisNum s.env e = some bid)
    {b : Basis K} (hb : tableVol s.env q bid = some b)
    (hndof : b.ndof ≠ 0) (hnpt : b.npt ≤ s.env.numip) :
    ∃ s' d, getField s (q.label e.name) true false = some (s', d) ∧
      (∀ el p, el < b.ne → p < b.npt → d el p = qtyValue c b q el p) ∧
      getField s' (q.label e.name) true false = some (s', d) := by
  have hinv : Inv dim es s := inv_run (inv_fresh dim es env0 loc0) hrun
  obtain ⟨pre, f, post, h1, h2, h3⟩ := vol_find hinv hn hp he hq
  have hflab : f.st.label = q.label e.name := by rw [h3]
  have hco : coeffs s.env f.st = some (c, bid) := by rw [h3]; exact coeffs_eq hc hbid hidx
  have haux : e.vtype ≠ .aux := by
    intro h; unfold coefOf at hc; rw [h] at hc; simp at hc
  have hproc : proceed s.env .volume f.st = true := by
    rw [h3]
    unfold proceed
    by_cases ht : q.kind = .time
    · obtain ⟨ht1, ht2⟩ := htime ht
      simp [ht1, ht2]
    · simp [ht, haux]
  have hfd : f.st.dtype = q.kind := by rw [h3]
  have hfc : f.st.comp = q.comp := by rw [h3]
  -- the field after the request
  have hval : ∀ g : Field K, g.st = f.st → g.updated = true → VolOK s.env g →
      ∀ el p, el < b.ne → p < b.npt → g.data el p = qtyValue c b q el p := by
    intro g hgst hgu hok el p hel hpt
    obtain ⟨c', bid', hco', hrest⟩ := hok hgu
    rw [hgst, hco] at hco'
    simp only [Option.some.injEq, Prod.mk.injEq] at hco'
    obtain ⟨rfl, rfl⟩ := hco'
    unfold qtyValue
    rcases hrest with ⟨hd, b', hb', hh⟩ | ⟨hd, b', hb', hh⟩
    · rw [hgst, hfd] at hd
      have hqd : q = .div := by cases q <;> simp_all [Qty.kind]
      subst hqd
      have : b' = b := by
        have hb2 : s.env.basisDiv[bid]? = some b := hb
        rw [hb'] at hb2
        simpa using hb2
      subst this
      rw [if_pos rfl]
      exact hh el p hel hpt
    · rw [hgst, hfd] at hd
      have hqd : q ≠ .div := by rintro rfl; exact hd rfl
      have : b' = b := by
        have hb2 : volBasis s.env f.st bid = some b := by
          unfold volBasis
          rw [hfd]
          cases q <;> simp_all [Qty.kind, tableVol]
        rw [hgst, hb2] at hb'
        simpa using hb'.symm
      subst this
      rw [if_neg hqd]
      rw [hgst, hfc] at hh
      exact hh el p hel hpt
  have hsucc : f.updated = false → ∃ g, evalVol s.env f = some g := by
    intro hu
    unfold evalVol
    rw [if_pos hproc, hco]
    simp only
    have hfill : ∀ k data, ∃ d, fill s.env.numip c b k data = some d := by
      intro k data
      unfold fill
      by_cases h0 : b.ne = 0 ∨ b.npt = 0
      · rw [if_pos h0]; exact ⟨_, rfl⟩
      · rw [if_neg h0, if_neg (by omega)]; exact ⟨_, rfl⟩
    by_cases hd : f.st.dtype = .div
    · rw [if_pos hd]
      have hqd : q = .div := by rw [hfd] at hd; cases q <;> simp_all [Qty.kind]
      subst hqd
      have hb2 : s.env.basisDiv[bid]? = some b := hb
      rw [hb2]
      simp only
      obtain ⟨d, hd⟩ := hfill 0 f.data
      rw [hd]
      exact ⟨_, rfl⟩
    · rw [if_neg hd]
      have hqd : q ≠ .div := by rintro rfl; exact hd hfd
      have hb2 : volBasis s.env f.st bid = some b := by
        unfold volBasis
        rw [hfd]
        cases q <;> simp_all [Qty.kind, tableVol]
      rw [hb2]
      simp only
      unfold evalWith
      by_cases hdim : b.dim ≤ f.st.comp
      · rw [if_pos hdim]; exact ⟨_, rfl⟩
      · rw [if_neg hdim]
        obtain ⟨d, hd⟩ := hfill f.st.comp f.data
        rw [hd]
        exact ⟨_, rfl⟩
  have hagain : ∀ g : Field K, g.st = f.st → g.updated = true →
      getField { s with vol := pre ++ g :: post } (q.label e.name) true false =
        some ({ s with vol := pre ++ g :: post }, g.data) := by
    intro g hgst hgu
    unfold getField
    simp only [hloc]
    rw [request_at h2 (by rw [hgst]; exact hflab), hgu]
    rfl
  cases hu : f.updated with
  | true =>
    have hs : s = { s with vol := pre ++ f :: post } := by rw [← h1]
    refine ⟨s, f.data, ?_, hval f rfl hu (hinv.volOK f (by rw [h1]; simp)), ?_⟩
    · have := hagain f rfl hu; rw [← hs] at this; exact this
    · have := hagain f rfl hu; rw [← hs] at this; exact this
  | false =>
    obtain ⟨g, hg⟩ := hsucc hu
    obtain ⟨hgst, hok, hup⟩ := evalVol_ok hu hg
    have hgu := hup hproc
    refine ⟨{ s with vol := pre ++ g :: post }, g.data, ?_, hval g hgst hgu hok, hagain g hgst hgu⟩
    unfold getField
    simp only [hloc]
    rw [h1, request_at h2 hflab, hu, hg]
    rfl

/-- C41 (partial): the same on sides, for values and gradients. -/
theorem C41_side_partial {dim : Nat} {es : List Entry} (hn : (es.map Entry.name).Nodup)
    (hp : ∀ e ∈ es, PlainName e.name) (env0 : Env K) (loc0 : Loc) (ops : List (Op K)) (s : State K)
    (hrun : run (fresh dim es env0 loc0) ops = some s) (hloc : s.loc = .side)
    {e : Entry} (he : e ∈ es) {q : Qty} (hq : q ∈ sideQty dim e.btype)
    (hidx : ∃ row, s.env.solIndex[e.set]? = some row ∧ e.var < row.length)
    {c : Nat → Nat → K} (hc : coefOf s.env e q = some c)
    {bid : Nat} (hbid : basisNum s.env e = some bid)
    {b : Basis K} (hb : tableSide s.env q bid = some b)
    (hndof : b.ndof ≠ 0) (hnpt : b.npt ≤ s.env.numsideip) :
    ∃ s' d, getField s (q.label e.name) true false = some (s', d) ∧
      (∀ el p, el < b.ne → p < b.npt → d el p = qtyValue c b q el p) ∧
      getField s' (q.label e.name) true false = some (s', d) := by
  have hinv : Inv dim es s := inv_run (inv_fresh dim es env0 loc0) hrun
  obtain ⟨pre, f, post, h1, h2, h3⟩ := side_find hinv hn hp he hq
  have hflab : f.st.label = q.label e.name := by rw [h3]
  have hco : coeffs s.env f.st = some (c, bid) := by rw [h3]; exact coeffs_eq hc hbid hidx
  have haux : e.vtype ≠ .aux := by
    intro h; unfold coefOf at hc; rw [h] at hc; simp at hc
  have hfd : f.st.dtype = q.kind := by rw [h3]
  have hfc : f.st.comp = q.comp := by rw [h3]
  have hqd : q ≠ .div := by rintro rfl; simp [tableSide] at hb
  have hkd : q.kind ≠ .div := by cases q <;> simp_all [Qty.kind]
  have hkt : q.kind ≠ .time := by
    cases q <;> simp_all [Qty.kind, tableSide]
  have hproc : proceed s.env .side f.st = true := by
    rw [h3]
    unfold proceed
    simp [hkt, haux]
  have hb2 : sideBasis s.env f.st bid = some b := by
    unfold sideBasis
    rw [hfd]
    cases q <;> simp_all [Qty.kind, tableSide]
  have hval : ∀ g : Field K, g.st = f.st → g.updated = true → SideOK s.env g →
      ∀ el p, el < b.ne → p < b.npt → g.data el p = qtyValue c b q el p := by
    intro g hgst hgu hok el p hel hpt
    obtain ⟨c', bid', hco', hrest⟩ := hok hgu
    rw [hgst, hco] at hco'
    simp only [Option.some.injEq, Prod.mk.injEq] at hco'
    obtain ⟨rfl, rfl⟩ := hco'
    unfold qtyValue
    rcases hrest with ⟨hd, b', hb', hh⟩ | ⟨hd, b', hb', hh⟩
    · rw [hgst, hfd] at hd
      exact absurd hd hkd
    · have : b' = b := by
        rw [hgst, hb2] at hb'
        simpa using hb'.symm
      subst this
      rw [if_neg hqd]
      rw [hgst, hfc] at hh
      exact hh el p hel hpt
  have hsucc : f.updated = false → ∃ g, evalSide s.env f = some g := by
    intro hu
    unfold evalSide
    rw [if_pos hproc, hco]
    simp only
    rw [if_neg (by rw [hfd]; exact hkd), hb2]
    simp only
    unfold evalWith
    by_cases hdim : b.dim ≤ f.st.comp
    · rw [if_pos hdim]; exact ⟨_, rfl⟩
    · rw [if_neg hdim]
      unfold fill
      by_cases h0 : b.ne = 0 ∨ b.npt = 0
      · rw [if_pos h0]; exact ⟨_, rfl⟩
      · rw [if_neg h0, if_neg (by omega)]; exact ⟨_, rfl⟩
  have hagain : ∀ g : Field K, g.st = f.st → g.updated = true →
      getField { s with side := pre ++ g :: post } (q.label e.name) true false =
        some ({ s with side := pre ++ g :: post }, g.data) := by
    intro g hgst hgu
    unfold getField
    simp only [hloc]
    rw [request_at h2 (by rw [hgst]; exact hflab), hgu]
    rfl
  cases hu : f.updated with
  | true =>
    have hs : s = { s with side := pre ++ f :: post } := by rw [← h1]
    refine ⟨s, f.data, ?_, hval f rfl hu (hinv.sideOK f (by rw [h1]; simp)), ?_⟩
    · have := hagain f rfl hu; rw [← hs] at this; exact this
    · have := hagain f rfl hu; rw [← hs] at this; exact this
  | false =>
    obtain ⟨g, hg⟩ := hsucc hu
    obtain ⟨hgst, hok, hup⟩ := evalSide_ok hu hg
    have hgu := hup hproc
    refine ⟨{ s with side := pre ++ g :: post }, g.data, ?_, hval g hgst hgu hok, hagain g hgst hgu⟩
    unfold getField
    simp only [hloc]
    rw [h1, request_at h2 hflab, hu, hg]
    rfl

end

/-! #### A concrete workset -/

/-- One element, two dofs, one point; entries distinguish the tables. -/
def toyBasis (k : Int) : Basis Int :=
  { ne := 1, ndof := 2, npt := 1, dim := 1, val := fun _ d _ _ => k * (d + 1) }

/-- Data of a steady workset with one variable and two parameters, all on basis 0. -/
def toyEnv (a : Int) : Env Int :=
  { transient := false, numip := 1, numsideip := 1,
    solIndex := [[0]], sol := [fun _ d => a + d], solDot := [], pvals := [fun _ _ => 5, fun _ _ => 6],
    setBasis := [[0]], paramBasis := [0, 0],
    basis := [toyBasis 1], basisGrad := [toyBasis 10], basisCurl := [toyBasis 100],
    basisDiv := [toyBasis 1000], basisSide := [toyBasis 2], basisGradSide := [toyBasis 20] }

/-- A variable `u` of type HGRAD. -/
def toyU : Entry := { name := "u".toList, vtype := .solution, set := 0, var := 0, btype := .hgrad }

/-- The hypotheses of `C41_volume_partial` are met after a request, new data and another request,
and the value is that of the new data. -/
example : ∃ s, run (fresh 1 [toyU] (toyEnv 7) .volume) [.ask "u".toList, .load (toyEnv 9)] = some s ∧
    s.loc = .volume ∧ coefOf s.env toyU .val = some (fun _ d => (9 : Int) + (d : Nat)) ∧
    basisNum s.env toyU = some 0 ∧ tableVol s.env .val 0 = some (toyBasis 1) ∧
    qtyValue (fun _ d => (9 : Int) + d) (toyBasis 1) .val 0 0 = 29 := by
  exact ⟨_, rfl, rfl, rfl, rfl, rfl, by decide⟩

/-- C18/C41 are violated: in a steady run the value of a variable named `u_tot` is never computed;
the request answers zero whatever the solution is. -/
theorem C18_stale_violated (a : Int) :
    ∃ s' d, getField (fresh 1 [{ toyU with name := "u_tot".toList }] (toyEnv a) .volume)
        "u_tot".toList true false = some (s', d) ∧
      d 0 0 = 0 ∧ qtyValue (fun _ d => a + d) (toyBasis 1) .val 0 0 = 3 * a + 2 := by
  refine ⟨_, _, rfl, rfl, ?_⟩
  simp only [qtyValue, femValue, toyBasis, Qty.comp]
  simp [Finset.sum_range_succ]
  ring

/-- C18 is violated: the value of a variable named `gradient` is computed with the gradients of the
basis functions. -/
theorem C18_value_violated (a : Int) :
    ∃ s' d, getField (fresh 1 [{ toyU with name := "gradient".toList }] (toyEnv a) .volume)
        "gradient".toList true false = some (s', d) ∧
      d 0 0 = a * 10 + (a + 1) * 20 := by
  refine ⟨_, _, rfl, ?_⟩
  simp [accumulate, toyBasis, mkStatic]

/-- C41 is violated: on a side, the curl of a vector field is computed with the values of the basis
functions, not with their curls (which are not tabulated on sides). -/
theorem C41_side_curl_violated (a : Int) :
    ∃ s' d, getField (fresh 2 [{ toyU with btype := .hcurl }] (toyEnv a) .side)
        "curl(u)".toList true false = some (s', d) ∧
      d 0 0 = qtyValue (fun _ d => a + d) (toyBasis 2) (.valc .x) 0 0 := by
  refine ⟨_, _, rfl, ?_⟩
  simp [accumulate, qtyValue, femValue, toyBasis, mkStatic, Qty.comp, Axis.num, Finset.sum_range_succ]

/-- C41 is violated: asking for the value of the second discretized parameter when there is one
variable reads past the end of the index of the variables. -/
theorem C41_param_index_violated :
    getField (fresh 1 [toyU,
        { name := "p0".toList, vtype := .param, set := 0, var := 0, btype := .hgrad },
        { name := "p1".toList, vtype := .param, set := 0, var := 1, btype := .hgrad }]
        (toyEnv 1) .volume) "p1".toList true false = none := by
  rfl

/-- C41 is violated: a label that is not registered reads past the end of the list of fields. -/
theorem C41_unknown_violated {K : Type} [Semiring K] (s : State K) (l : Str) (evaluate mark : Bool)
    (hv : ∀ f ∈ s.vol, f.st.label ≠ l) (hs : ∀ f ∈ s.side, f.st.label ≠ l) :
    getField s l evaluate mark = none := by
  have key : ∀ (ev : Field K → Option (Field K)) (fs : List (Field K)),
      (∀ f ∈ fs, f.st.label ≠ l) → request ev l evaluate mark fs = none := by
    intro ev fs
    induction fs with
    | nil => intro _; rfl
    | cons f fs ih =>
      intro h
      unfold request
      rw [if_neg (fun e => h f (by simp) e.symm), ih (fun g hg => h g (by simp [hg]))]
      rfl
  unfold getField
  cases s.loc with
  | volume => simp only [key _ _ hv, Option.map_none]
  | side => simp only [key _ _ hs, Option.map_none]
  | point => rfl

end MrHyDE.Workset
