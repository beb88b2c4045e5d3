import Verif.Expr.ValueLemmas
import Verif.Dag.Props

/-
Helper lemmas: evaluation of a set-up forest computes the values of the expressions.
-/

namespace MrHyDE.Expr

variable {K : Type}

/-- Branch `b` of tree `t`. -/
def Forest.at (F : Forest) (t b : Nat) : Option ABranch := F[t]?.bind (·[b]?)

/-- Expression of branch `b` of tree `t`. -/
def labelAt (Ls : List (List Ex)) (t b : Nat) : Option Ex := Ls[t]?.bind (·[b]?)

/-- The forest stands for the labels `Ls`, roots are the definitions, flags are consistent. -/
structure FOk (P : Program) (rank : Nat → Nat) (Ls : List (List Ex)) (F : Forest) : Prop where
  lenF : F.length = P.defs.length
  root : ∀ (t : Nat) (d : Str × Ex), P.defs[t]? = some d → labelAt Ls t 0 = some d.2
  has : ∀ t b, (F.at t b).isSome = (labelAt Ls t b).isSome
  shape : ∀ t b br e, F.at t b = some br → labelAt Ls t b = some e →
    e.Ok (Known P.env) ∧ Shape P.env (Ls[t]?.getD []) b e br.kind
  rankF : ∀ t b s (j : Nat), labelAt Ls t b = some (.name s) → P.env.funcs[j]? = some s → rank j < rank t
  noAlias : ∀ t b s (j : Nat) (d : Str × Ex), labelAt Ls t b = some (.name s) → P.env.funcs[j]? = some s →
    P.defs[j]? = some d → ∀ q, d.2 = .name q → ¬ IsParamName P.env q
  leafFlags : ∀ t b br l, F.at t b = some br → br.kind = .leaf l →
    br.isConst = l.flags.isConst ∧ br.isView = l.flags.isView
  nodeFlags : ∀ t b br deps, F.at t b = some br → br.kind = .node deps →
    ∀ d ∈ deps, ∀ db, F.at t d.2 = some db → (db.isView = true → br.isView = true) ∧ (br.isConst = true → db.isConst = true)
  funcFlags : ∀ t b br (j : Nat), F.at t b = some br → br.kind = .func j →
    ∀ r, F.at j 0 = some r → r.isView = br.isView ∧ r.isConst = br.isConst

variable {P : Program} {rank : Nat → Nat} {Ls : List (List Ex)} {F : Forest}

/-- Measure that decreases along evaluation. -/
def msr (rank : Nat → Nat) (B t b : Nat) : Nat := rank t * (B + 1) + (B - b)

theorem labelAt_node {t : Nat} {i : Nat} {x : Ex} (h : (Ls[t]?.getD [])[i]? = some x) : labelAt Ls t i = some x := by
  unfold labelAt
  cases hl : Ls[t]? with
  | none => simp [hl] at h
  | some L => simpa [hl] using h

theorem FOk.get (h : FOk P rank Ls F) {t b : Nat} {e : Ex} (he : labelAt Ls t b = some e) :
    ∃ br, F.at t b = some br := by
  have := h.has t b
  rw [he] at this
  exact Option.isSome_iff_exists.mp (by simpa using this)

variable (A : Arith K) (lit : Str → K) (ρ : WksetData K → Str → View K)

/-- Value of an expression as a view. -/
def Val (w : WksetData K) (e : Ex) : View K := fun i p => e.value A lit (fun s => ρ w s i p)

/-- The cell holds the value of `e` (nothing is required of parameter leaves). -/
def Good (w : WksetData K) (br : ABranch) (e : Ex) (c : Cell K) : Prop :=
  match br.kind.paramVal w with
  | some x => br.isView = true ∧ Val A lit ρ w e = fun _ _ => x
  | none => if br.isView = true then c.view = Val A lit ρ w e else ∀ i p, c.sc = Val A lit ρ w e i p

/-- Effect of evaluating branch `b` of tree `t`. -/
def Post (rank : Nat → Nat) (Ls : List (List Ex)) (F : Forest) (w : WksetData K) (st st' : Store K) (t b : Nat) : Prop :=
  (∀ br e, F.at t b = some br → labelAt Ls t b = some e → Good A lit ρ w br e (st' t b)) ∧
  ∀ t' b', st' t' b' = st t' b' ∨
    (((t' = t ∧ b ≤ b') ∨ rank t' < rank t) ∧
      ∀ br e, F.at t' b' = some br → labelAt Ls t' b' = some e → Good A lit ρ w br e (st' t' b'))

variable {A lit ρ}

theorem paramVal_none_of_kind {w : WksetData K} {k : DKind} (h : ∀ l, k ≠ .leaf l) : k.paramVal w = none := by
  cases k with
  | leaf l => exact absurd rfl (h l)
  | _ => rfl

theorem leaf_good (hA : Laws A lit) (hρ : ∀ w, Meaning A lit P w (ρ w)) (h : FOk P rank Ls F) (w : WksetData K)
    {t b : Nat} {br : ABranch} {e : Ex} {l : Leaf} (hb : F.at t b = some br) (he : labelAt Ls t b = some e)
    (hk : br.kind = .leaf l) (c : Cell K) : Good A lit ρ w br e (evalLeaf A w l c) := by
  have hs := (h.shape t b br e hb he).2
  have hf := (h.leafFlags t b br l hb hk).2
  rw [hk] at hs
  unfold Good
  rw [hk]
  cases hs with
  | leaf hl =>
    rename_i s
    have hv : Val A lit ρ w (.name s) = leafView A w l := (hρ w).sees _ _ (leafOf_sees A w hl)
    rw [hv]
    cases hl <;> simp [DKind.paramVal, Leaf.paramVal, evalLeaf, leafView, hf, Leaf.flags]
  | num hn =>
    rename_i s
    simp [DKind.paramVal, Leaf.paramVal, evalLeaf, hf, Leaf.flags, Val, Ex.value, hA.stodLit _ hn]
  | negnum hn =>
    rename_i s
    simp [DKind.paramVal, Leaf.paramVal, evalLeaf, hf, Leaf.flags, Val, Ex.value, hA.stodNeg _ hn]

theorem put_same (st : Store K) (t b : Nat) (c : Cell K) : st.put t b c t b = c := by simp [Store.put]

theorem put_ne (st : Store K) (t b : Nat) (c : Cell K) {t' b' : Nat} (h : ¬ (t' = t ∧ b' = b)) :
    st.put t b c t' b' = st t' b' := by simp [Store.put, h]

/-- The loop over the dependencies of a node. -/
theorem node_loop (hA : Laws A lit) (h : FOk P rank Ls F) (w : WksetData K) (dim1 n : Nat)
    {t b : Nat} {br : ABranch} {deps0 : List (Op × Nat)} (hb : F.at t b = some br) (hk : br.kind = .node deps0)
    (IH : ∀ st b', b < b' → (F.at t b').isSome = true → ∃ st', evalB A w dim1 F n st t b' = some st' ∧ Post A lit ρ rank Ls F w st st' t b')
    (deps : List (Op × Nat)) :
    ∀ (ks : List (Op × Ex)) (st : Store K), (∀ d ∈ deps, d ∈ deps0) → (∀ k ∈ ks, isReduction k.1 = false) →
      List.Forall₂ (fun (d : Op × Nat) (x : Op × Ex) => d.1 = x.1 ∧ b < d.2 ∧ labelAt Ls t d.2 = some x.2) deps ks →
      ∃ st', deps.foldlM (fun st d =>
          match evalB A w dim1 F n st t d.2 with
          | none => none
          | some st' =>
            match F[t]?.bind (·[d.2]?) with
            | none => none
            | some db => some (st'.put t b (combine A w dim1 br.isView d.1 db (st' t d.2) (st' t b)))) st = some st' ∧
        (br.isView = true → (st' t b).view = fun i p => foldVal A (fun e => Val A lit ρ w e i p) ((st t b).view i p) ks) ∧
        (br.isView = false → ∀ i p, (st' t b).sc = foldVal A (fun e => Val A lit ρ w e i p) (st t b).sc ks) ∧
        ∀ t' b', ¬ (t' = t ∧ b' = b) → st' t' b' = st t' b' ∨
          (((t' = t ∧ b ≤ b') ∨ rank t' < rank t) ∧
            ∀ br e, F.at t' b' = some br → labelAt Ls t' b' = some e → Good A lit ρ w br e (st' t' b')) := by
  induction deps with
  | nil =>
    intro ks st _ _ hf
    cases hf
    exact ⟨st, rfl, fun _ => rfl, fun _ _ _ => rfl, fun _ _ _ => Or.inl rfl⟩
  | cons d ds ih =>
    intro ks st hsub hred hf
    cases hf with
    | cons hd hds =>
    rename_i k ks
    obtain ⟨h1, h2, h3⟩ := hd
    obtain ⟨db, hdb⟩ := h.get h3
    obtain ⟨st1, he1, hg1, hp1⟩ := IH st d.2 h2 (by rw [hdb]; rfl)
    have hgood := hg1 db k.2 hdb h3
    have hsame : st1 t b = st t b := by
      rcases hp1 t b with h' | ⟨h' | h', _⟩
      · exact h'
      · omega
      · omega
    have hflag := h.nodeFlags t b br deps0 hb hk d (hsub d (by simp)) db hdb
    have hop : isReduction d.1 = false := by rw [h1]; exact hred k (by simp)
    obtain ⟨st2, he2, hv2, hs2, hp2⟩ := ih ks (st1.put t b (combine A w dim1 br.isView d.1 db (st1 t d.2) (st1 t b)))
      (fun x hx => hsub x (by simp [hx])) (fun x hx => hred x (by simp [hx])) hds
    refine ⟨st2, ?_, ?_, ?_, ?_⟩
    · rw [List.foldlM_cons, he1]
      have hdb' : F[t]?.bind (·[d.2]?) = some db := hdb
      simp only [hdb']
      exact he2
    · intro hv
      rw [hv2 hv, put_same, hv, combine_view hA w dim1 d.1 hop db (st1 t d.2) (st1 t b) (Val A lit ρ w k.2) hgood,
        hsame, h1]
      rfl
    · intro hv i p
      have hdv : db.isView = false := by
        cases hx : db.isView with
        | false => rfl
        | true => have := hflag.1 hx; rw [hv] at this; simp at this
      rw [hs2 hv i p, put_same, hv, combine_sc hA w dim1 d.1 hop db _ _ hdv, hsame, h1]
      have : (st1 t d.2).sc = Val A lit ρ w k.2 i p := by
        unfold Good at hgood
        cases hpv : db.kind.paramVal w with
        | some x => rw [hpv] at hgood; rw [hdv] at hgood; simp at hgood
        | none => rw [hpv] at hgood; simp only [hdv, Bool.false_eq_true, if_false] at hgood; exact hgood i p
      rw [this]
      rfl
    · intro t' b' hne
      rcases hp2 t' b' hne with h' | h'
      · rw [put_ne _ _ _ _ hne] at h'
        rcases hp1 t' b' with h'' | ⟨h'', h'''⟩
        · exact Or.inl (h'.trans h'')
        · right
          refine ⟨?_, ?_⟩
          · rcases h'' with h'' | h''
            · left; exact ⟨h''.1, by omega⟩
            · exact Or.inr h''
          · rw [h']; exact h'''
      · exact Or.inr h'

/-- Evaluation of any branch, from any store. -/
theorem evalB_spec (hA : Laws A lit) (hρ : ∀ w, Meaning A lit P w (ρ w)) (h : FOk P rank Ls F)
    (w : WksetData K) (dim1 B : Nat) (hB : ∀ t b, (F.at t b).isSome = true → b < B) (n : Nat) :
    ∀ st t b, (F.at t b).isSome = true → msr rank B t b < n →
      ∃ st', evalB A w dim1 F n st t b = some st' ∧ Post A lit ρ rank Ls F w st st' t b := by
  induction n with
  | zero => intro st t b _ hm; omega
  | succ n ih =>
    intro st t b hbs hm
    obtain ⟨br, hb⟩ := Option.isSome_iff_exists.mp hbs
    obtain ⟨e, he⟩ := Option.isSome_iff_exists.mp ((h.has t b).symm.trans (by rw [hb]; rfl))
    have hb' : F[t]?.bind (·[b]?) = some br := hb
    obtain ⟨hok, hsh⟩ := h.shape t b br e hb he
    cases hk : br.kind with
    | leaf l =>
      refine ⟨st.put t b (evalLeaf A w l (st t b)), by rw [evalB, hb']; simp only [hk], ?_, ?_⟩
      · intro br' e' hbr' he'
        rw [hb] at hbr'; rw [he] at he'
        simp only [Option.some.injEq] at hbr' he'
        subst hbr' he'
        rw [put_same]
        exact leaf_good hA hρ h w hb he hk _
      · intro t' b'
        by_cases hx : t' = t ∧ b' = b
        · obtain ⟨rfl, rfl⟩ := hx
          refine Or.inr ⟨Or.inl ⟨rfl, Nat.le_refl _⟩, ?_⟩
          intro br' e' hbr' he'
          rw [hb] at hbr'; rw [he] at he'
          simp only [Option.some.injEq] at hbr' he'
          subst hbr' he'
          rw [put_same]
          exact leaf_good hA hρ h w hb he hk _
        · exact Or.inl (put_ne _ _ _ _ hx)
    | func j =>
      rw [hk] at hsh
      cases hsh with
      | func hj =>
      rename_i s
      have hrk := h.rankF t b s j he hj
      have hjlen : j < P.defs.length := by
        have := (List.getElem?_eq_some_iff.mp hj).1
        simpa [Program.env] using this
      have hd : P.defs[j]? = some P.defs[j] := List.getElem?_eq_getElem hjlen
      have hroot := h.root j _ hd
      obtain ⟨r, hr⟩ := h.get hroot
      have hm' : msr rank B j 0 < n := by
        unfold msr at hm ⊢
        have h1 : (rank j + 1) * (B + 1) ≤ rank t * (B + 1) := Nat.mul_le_mul_right _ hrk
        rw [Nat.add_mul, Nat.one_mul] at h1
        omega
      obtain ⟨st1, he1, hg1, hp1⟩ := ih st j 0 (by rw [hr]; rfl) hm'
      have hgood := hg1 r _ hr hroot
      have hfl := h.funcFlags t b br j hb hk r hr
      have hval : Val A lit ρ w (.name s) = Val A lit ρ w P.defs[j].2 := by
        have hs : P.defs[j].1 = s := by
          have : P.env.funcs[j]? = some P.defs[j].1 := by simp [Program.env, hd]
          rw [hj] at this
          simpa using this.symm
        have := (hρ w).func P.defs[j] (List.getElem_mem hjlen)
        rw [hs] at this
        exact this
      have hnp : r.kind.paramVal w = none := by
        cases hrk' : r.kind with
        | leaf l =>
          have hs' := (h.shape j 0 r _ hr hroot).2
          rw [hrk'] at hs'
          generalize hq : P.defs[j].2 = x at hs'
          cases hs' with
          | leaf hl =>
            rename_i q
            have hna := h.noAlias t b s j _ he hj hd q hq
            cases hl with
            | soln _ => rfl
            | scal _ => rfl
            | param hp => exact absurd ⟨_, List.mem_of_getElem? hp, Or.inl rfl⟩ hna
            | paramC hp hc => exact absurd ⟨_, List.mem_of_getElem? hp, Or.inr (Or.inr ⟨_, Or.inl hc⟩)⟩ hna
            | dot hp => exact absurd ⟨_, List.mem_of_getElem? hp, Or.inr (Or.inl rfl)⟩ hna
            | dotC hp hc => exact absurd ⟨_, List.mem_of_getElem? hp, Or.inr (Or.inr ⟨_, Or.inr hc⟩)⟩ hna
            | time => rfl
            | pi => rfl
          | num _ => rfl
          | negnum _ => rfl
        | func i => rfl
        | node ds => rfl
      have hfinal : Good A lit ρ w br (.name s)
          (if br.isView then { st1 t b with view := (st1 j 0).view } else { st1 t b with sc := (st1 j 0).sc }) := by
        unfold Good at hgood ⊢
        rw [hnp] at hgood
        rw [hk, show DKind.paramVal w (.func j) = none from rfl, hval]
        simp only [hfl.1] at hgood
        by_cases hv : br.isView = true
        · simp only [hv, if_true] at hgood ⊢; exact hgood
        · simp only [hv, Bool.false_eq_true, if_false] at hgood ⊢; exact hgood
      refine ⟨st1.put t b (if br.isView then { st1 t b with view := (st1 j 0).view } else
        { st1 t b with sc := (st1 j 0).sc }), by rw [evalB, hb']; simp only [hk, he1], ?_, ?_⟩
      · intro br' e' hbr' he'
        rw [hb] at hbr'; rw [he] at he'
        simp only [Option.some.injEq] at hbr' he'
        subst hbr' he'
        rw [put_same]; exact hfinal
      · intro t' b'
        by_cases hx : t' = t ∧ b' = b
        · obtain ⟨rfl, rfl⟩ := hx
          refine Or.inr ⟨Or.inl ⟨rfl, Nat.le_refl _⟩, ?_⟩
          intro br' e' hbr' he'
          rw [hb] at hbr'; rw [he] at he'
          simp only [Option.some.injEq] at hbr' he'
          subst hbr' he'
          rw [put_same]; exact hfinal
        · rw [put_ne _ _ _ _ hx]
          rcases hp1 t' b' with h' | ⟨h', h''⟩
          · exact Or.inl h'
          · refine Or.inr ⟨Or.inr ?_, h''⟩
            rcases h' with ⟨rfl, _⟩ | h'
            · exact hrk
            · omega
    | node deps =>
      rw [hk] at hsh
      cases hsh with
      | node hd h1 h2 =>
      have hbB := hB t b hbs
      obtain ⟨st', he', hv', hs', hp'⟩ := node_loop (ρ := ρ) hA h w dim1 n hb hk
        (fun st b' hlt hb'' => ih st t b' hb'' (by
          have := hB t b' hb''
          unfold msr at hm ⊢; omega)) deps (kids e) st (fun d hd => hd) (kids_noRed e hok)
        (hd.imp fun d x ⟨a, b, c⟩ => ⟨a, b, labelAt_node c⟩)
      have hfinal : Good A lit ρ w br e (st' t b) := by
        unfold Good
        rw [hk, show DKind.paramVal w (.node deps) = none from rfl]
        by_cases hv : br.isView = true
        · simp only [hv, if_true]
          rw [hv' hv]
          funext i p
          exact fold_kids A lit _ e hok h1 h2 _
        · simp only [hv, Bool.false_eq_true, if_false]
          intro i p
          rw [hs' (by simpa using hv) i p]
          exact fold_kids A lit _ e hok h1 h2 _
      refine ⟨st', by rw [evalB, hb']; simp only [hk]; exact he', ?_, ?_⟩
      · intro br' e' hbr' he''
        rw [hb] at hbr'; rw [he] at he''
        simp only [Option.some.injEq] at hbr' he''
        subst hbr' he''
        exact hfinal
      · intro t' b'
        by_cases hx : t' = t ∧ b' = b
        · obtain ⟨rfl, rfl⟩ := hx
          refine Or.inr ⟨Or.inl ⟨rfl, Nat.le_refl _⟩, ?_⟩
          intro br' e' hbr' he''
          rw [hb] at hbr'; rw [he] at he''
          simp only [Option.some.injEq] at hbr' he''
          subst hbr' he''
          exact hfinal
        · exact hp' t' b' hx

/-- A constant branch has the same value whatever the workset holds. -/
theorem const_val (hρ : ∀ w, Meaning A lit P w (ρ w)) (h : FOk P rank Ls F)
    (B : Nat) (hB : ∀ t b, (F.at t b).isSome = true → b < B) (w w' : WksetData K) (n : Nat) :
    ∀ t b br e, F.at t b = some br → labelAt Ls t b = some e → br.isConst = true → msr rank B t b < n →
      Val A lit ρ w e = Val A lit ρ w' e := by
  induction n with
  | zero => intro t b br e _ _ _ hm; omega
  | succ n ih =>
    intro t b br e hb he hc hm
    obtain ⟨hok, hsh⟩ := h.shape t b br e hb he
    cases hk : br.kind with
    | leaf l =>
      have hf := (h.leafFlags t b br l hb hk).1
      rw [hk] at hsh
      cases hsh with
      | leaf hl =>
        rename_i s
        have e1 : ∀ w, Val A lit ρ w (.name s) = leafView A w l := fun w => (hρ w).sees _ _ (leafOf_sees A w hl)
        rw [e1 w, e1 w']
        cases hl <;> first | rfl | (rw [hc] at hf; simp [Leaf.flags] at hf)
      | num _ => rfl
      | negnum _ => rfl
    | func j =>
      rw [hk] at hsh
      cases hsh with
      | func hj =>
      rename_i s
      have hrk := h.rankF t b s j he hj
      have hjlen : j < P.defs.length := by
        have := (List.getElem?_eq_some_iff.mp hj).1
        simpa [Program.env] using this
      have hd : P.defs[j]? = some P.defs[j] := List.getElem?_eq_getElem hjlen
      have hroot := h.root j _ hd
      obtain ⟨r, hr⟩ := h.get hroot
      have hm' : msr rank B j 0 < n := by
        unfold msr at hm ⊢
        have h1 : (rank j + 1) * (B + 1) ≤ rank t * (B + 1) := Nat.mul_le_mul_right _ hrk
        rw [Nat.add_mul, Nat.one_mul] at h1
        omega
      have hval : ∀ w, Val A lit ρ w (.name s) = Val A lit ρ w P.defs[j].2 := by
        intro w
        have hs : P.defs[j].1 = s := by
          have : P.env.funcs[j]? = some P.defs[j].1 := by simp [Program.env, hd]
          rw [hj] at this
          simpa using this.symm
        have := (hρ w).func P.defs[j] (List.getElem_mem hjlen)
        rw [hs] at this
        exact this
      rw [hval w, hval w']
      exact ih j 0 r _ hr hroot ((h.funcFlags t b br j hb hk r hr).2.trans hc) hm'
    | node deps =>
      rw [hk] at hsh
      cases hsh with
      | node hd h1 h2 =>
      have hbB := hB t b (by rw [hb]; rfl)
      have hkid : ∀ k ∈ kids e, Val A lit ρ w k.2 = Val A lit ρ w' k.2 := by
        intro k hkm
        obtain ⟨i, hi⟩ := List.mem_iff_getElem.mp hkm
        obtain ⟨hi, hik⟩ := hi
        have hlen := hd.length_eq
        have := (List.forall₂_iff_get.mp hd).2 i (by omega) hi
        simp only [List.get_eq_getElem, hik] at this
        have hl := labelAt_node this.2.2
        obtain ⟨db, hdb⟩ := h.get hl
        have hb2 := hB t _ (by rw [hdb]; rfl : (F.at t (deps[i]).2).isSome = true)
        exact ih t _ db _ hdb hl
          ((h.nodeFlags t b br deps hb hk _ (List.getElem_mem (by omega)) db hdb).2 hc)
          (by unfold msr at hm ⊢; omega)
      funext i p
      have f1 := fold_kids A lit (fun s => ρ w s i p) e hok h1 h2 A.zero
      have f2 := fold_kids A lit (fun s => ρ w' s i p) e hok h1 h2 A.zero
      show e.value A lit _ = e.value A lit _
      rw [← f1, ← f2]
      unfold foldVal
      have hgen : ∀ (ks : List (Op × Ex)), (∀ k ∈ ks, Val A lit ρ w k.2 = Val A lit ρ w' k.2) → ∀ d,
          ks.foldl (fun d k => applyOp A .vToV k.1 d (k.2.value A lit (fun s => ρ w s i p))) d =
          ks.foldl (fun d k => applyOp A .vToV k.1 d (k.2.value A lit (fun s => ρ w' s i p))) d := by
        intro ks
        induction ks with
        | nil => intro _ _; rfl
        | cons k ks ih2 =>
          intro hks d
          simp only [List.foldl_cons]
          have : k.2.value A lit (fun s => ρ w s i p) = k.2.value A lit (fun s => ρ w' s i p) :=
            congrFun (congrFun (hks k (by simp)) i) p
          rw [this]
          exact ih2 (fun x hx => hks x (by simp [hx])) _
      exact hgen _ hkid _

end MrHyDE.Expr
