import Verif.Spec.Configure
/-!
# C18: the configuration keeps the last value and the history
# C19: argument checking
-/
namespace Verif.Configure
variable {V : Type}

/-! ### C18 -/

private theorem ops_append (key : String) (log : List (Entry V)) (e : Entry V) :
    ops key (log ++ [e]) = ops key log ++ (match e with
      | .set k v f => if k = key then [some (v, f)] else []
      | .del k => if k = key then [none] else []) := by
  simp only [ops, List.filterMap_append]
  congr 1
  cases e with
  | set k v f => by_cases h : k = key <;> simp [h]
  | del k => by_cases h : k = key <;> simp [h]

private theorem overridden_append {α : Type} (xs : List (Option α)) (b : Option α) :
    overridden (xs ++ [b]) = overridden xs ++ (match xs.getLast?.join, b with
      | some a, some _ => [a]
      | _, _ => []) := by
  induction xs with
  | nil => cases b <;> simp [overridden]
  | cons x xs ih =>
    cases xs with
    | nil => cases x <;> cases b <;> simp [overridden]
    | cons y ys =>
      have hl : (x :: y :: ys).getLast? = (y :: ys).getLast? := by simp
      rw [hl]
      cases x with
      | none => simpa [overridden] using ih
      | some a =>
        cases y with
        | none => simpa [overridden] using ih
        | some c =>
          simp only [List.cons_append, overridden] at ih ⊢
          rw [ih]

/-- The configuration contains what the log says. -/
def Represents (c : Config V) (log : List (Entry V)) : Prop :=
  ∀ k, c.data k = (current k log).map Prod.fst ∧ ((current k log).isSome → c.file k = (current k log).map Prod.snd) ∧
    c.history k = overridden (ops k log)

private theorem setitem_spec (c : Config V) (log : List (Entry V)) (h : Represents c log) (file : String)
    (hf : c.stack.head? = some file) (key : String) (value : V) :
    ∃ c', c.setitem key value = .ok c' ∧ Represents c' (log ++ [.set key value file]) ∧ c'.stack = c.stack := by
  obtain ⟨h1, h2, h3⟩ := h key
  have hcur : ∀ k, current k (log ++ [Entry.set key value file]) = if key = k then some (value, file) else current k log := by
    intro k
    simp only [current, ops_append]
    by_cases hk : key = k <;> simp [hk]
  unfold Config.setitem
  rw [hf]
  cases hc : current key log with
  | none =>
    simp only [hc, Option.map_none] at h1
    simp only [h1]
    refine ⟨_, rfl, ?_, rfl⟩
    intro k
    obtain ⟨g1, g2, g3⟩ := h k
    simp only [hcur]
    by_cases hk : key = k
    · subst hk
      simp only [if_true, Option.map_some, Option.isSome_some, forall_const, true_and]
      rw [h3, ops_append]
      simp only [if_true]
      rw [overridden_append]
      have : (ops key log).getLast?.join = none := hc
      rw [this]; simp
    · have hk' : ¬ k = key := fun h => hk h.symm
      simp only [if_neg hk, if_neg hk']
      refine ⟨g1, g2, ?_⟩
      rw [g3, ops_append]; simp [hk]
  | some old =>
    obtain ⟨old, f⟩ := old
    simp only [hc, Option.map_some] at h1
    have hfile := h2 (by simp [hc])
    simp only [hc, Option.map_some] at hfile
    simp only [h1, hfile]
    refine ⟨_, rfl, ?_, rfl⟩
    intro k
    obtain ⟨g1, g2, g3⟩ := h k
    simp only [hcur]
    by_cases hk : key = k
    · subst hk
      simp only [if_true, Option.map_some, Option.isSome_some, forall_const, true_and]
      rw [h3, ops_append]
      simp only [if_true]
      rw [overridden_append]
      have : (ops key log).getLast?.join = some (old, f) := hc
      rw [this]
    · have hk' : ¬ k = key := fun h => hk h.symm
      simp only [if_neg hk, if_neg hk']
      refine ⟨g1, g2, ?_⟩
      rw [g3, ops_append]; simp [hk]

private theorem delitem_spec (c : Config V) (log : List (Entry V)) (h : Represents c log) (key : String) :
    (current key log = none ∧ c.delitem key = .error .keyError) ∨
    ((current key log).isSome ∧ ∃ c', c.delitem key = .ok c' ∧ Represents c' (log ++ [.del key]) ∧ c'.stack = c.stack) := by
  obtain ⟨h1, _, _⟩ := h key
  unfold Config.delitem
  cases hc : current key log with
  | none => left; simp [hc] at h1; simp [h1]
  | some old =>
    right
    simp only [hc, Option.map_some] at h1
    simp only [h1, Option.isSome_some, true_and]
    refine ⟨_, rfl, ?_, rfl⟩
    intro k
    obtain ⟨g1, g2, g3⟩ := h k
    have hcur : current k (log ++ [Entry.del key]) = if key = k then none else current k log := by
      simp only [current, ops_append]
      by_cases hk : key = k <;> simp [hk]
    rw [hcur]
    by_cases hk : key = k
    · subst hk
      simp only [if_true, Option.map_none, Option.isSome_none, Bool.false_eq_true, false_implies, true_and]
      rw [g3, ops_append]
      simp only [if_true]
      rw [overridden_append]
      cases (ops key log).getLast?.join <;> simp
    · have hk' : ¬ k = key := fun h => hk h.symm
      simp only [if_neg hk, if_neg hk']
      refine ⟨g1, g2, ?_⟩
      rw [g3, ops_append]; simp [hk]

private theorem exec_spec (s : Script V) (hs : NoTry s) (c : Config V) (log : List (Entry V)) (h : Represents c log)
    (file : String) (hf : c.stack.head? = some file) :
    Represents (exec s c).1 (logOf file s log).1 ∧ (exec s c).2 = (logOf file s log).2 ∧
      ((exec s c).2 = none → (exec s c).1.stack = c.stack) := by
  induction s generalizing c log file with
  | done => exact ⟨h, rfl, fun _ => rfl⟩
  | raise e => exact ⟨h, rfl, fun _ => rfl⟩
  | inclMissing name => exact ⟨h, rfl, fun hc => by cases hc⟩
  | assign key value k ih =>
    have hd : c.data = fun k => (current k log).map Prod.fst := by funext k; exact (h k).1
    obtain ⟨c', e1, e2, e3⟩ := setitem_spec c log h file hf key (value c.data)
    have := ih hs c' _ e2 file (by rw [e3]; exact hf)
    simp only [exec, e1, logOf, ← hd]
    rw [e3] at this
    exact this
  | del key k ih =>
    rcases delitem_spec c log h key with ⟨h1, h2⟩ | ⟨h1, c', e1, e2, e3⟩
    · simp only [exec, h2, logOf, h1, Option.isSome_none, Bool.false_eq_true, if_false]
      exact ⟨h, trivial, fun hc => by cases hc⟩
    · have := ih hs c' _ e2 file (by rw [e3]; exact hf)
      simp only [exec, e1, logOf, h1, if_true]
      rw [e3] at this
      exact this
  | incl name body k ihb ihk =>
    obtain ⟨b1, b2, b3⟩ := ihb hs.1 (c.push name) log h name rfl
    simp only [exec, logOf]
    cases hb : exec body (c.push name) with
    | mk c1 e =>
      rw [hb] at b1 b2 b3
      cases hl : logOf name body log with
      | mk log1 e1 =>
        rw [hl] at b1 b2
        simp only at b1 b2 b3
        subst b2
        cases e with
        | some e => exact ⟨b1, rfl, fun hc => by cases hc⟩
        | none =>
          have hst := b3 rfl
          have hpop : c1.pop.stack = c.stack := by simp [Config.pop, hst, Config.push]
          have := ihk hs.2 c1.pop log1 b1 file (by rw [hpop]; exact hf)
          simp only
          rw [hpop] at this
          exact this
  | tryIncl name body k _ _ => exact absurd hs (by simp [NoTry])

private theorem addAll_spec (kvs : List (String × V)) (c : Config V) (log : List (Entry V)) (h : Represents c log)
    (file : String) (hf : c.stack.head? = some file) :
    ∃ c', addAll kvs c = .ok c' ∧ Represents c' (log ++ kvs.map fun kv => .set kv.1 kv.2 file) ∧ c'.stack = c.stack := by
  induction kvs generalizing c log with
  | nil => exact ⟨c, rfl, by simpa using h, rfl⟩
  | cons kv kvs ih =>
    obtain ⟨k, v⟩ := kv
    obtain ⟨c1, e1, e2, e3⟩ := setitem_spec c log h file hf k v
    obtain ⟨c2, g1, g2, g3⟩ := ih c1 _ e2 (by rw [e3]; exact hf)
    refine ⟨c2, by simp only [addAll, e1, g1], by simpa using g2, by rw [g3, e3]⟩

/-- The complete log of a run: what the files do, then the options of the command line. -/
def fullLog (log : List (Entry V)) (cli : List (String × Option V)) : List (Entry V) :=
  log ++ cli.filterMap fun kv => kv.2.map fun v => .set kv.1 v "<command line>"

/-- **C18** For any tree of included files and any command line options: reading fails with the exception
raised by the files if they raise; otherwise every key has the last value assigned to it, attributed to the
file in which that assignment is written, and its history contains all the values it had before, in order
and with their files; the file stack is back to its initial state. -/
theorem configure_spec (name : String) (s : Script V) (hs : NoTry s) (cli : List (String × Option V)) :
    (∀ e, (logOf name s []).2 = some e → configure name s cli = .error e) ∧
    ((logOf name s []).2 = none → ∃ c, configure name s cli = .ok c ∧ c.stack = ["<none>"] ∧
      ∀ k, c.data k = (current k (fullLog (logOf name s []).1 cli)).map Prod.fst ∧
        c.asNamespace k = c.data k ∧
        (∀ v f, current k (fullLog (logOf name s []).1 cli) = some (v, f) → c.file k = some f) ∧
        c.history k = overridden (ops k (fullLog (logOf name s []).1 cli))) := by
  have h0 : Represents (Config.new : Config V) [] := by
    intro k; simp [Config.new, current, ops, overridden]
  obtain ⟨b1, b2, b3⟩ := exec_spec (.incl name s .done) ⟨hs, trivial⟩ Config.new [] h0 "<none>" rfl
  have hl : logOf "<none>" (.incl name s .done) [] = logOf name s [] := by
    simp only [logOf]
    cases logOf name s [] with
    | mk l e => cases e <;> rfl
  rw [hl] at b1 b2
  constructor
  · intro e he
    rw [he] at b2
    simp only [configure]
    cases hx : exec (.incl name s .done) (Config.new : Config V) with
    | mk c e' => rw [hx] at b2; simp only at b2; subst b2; rfl
  · intro he
    rw [he] at b2
    have hst := b3 b2
    simp only [configure]
    cases hx : exec (.incl name s .done) (Config.new : Config V) with
    | mk c e' =>
      rw [hx] at b1 b2 hst
      simp only at b1 b2 hst
      subst b2
      obtain ⟨c', e1, e2, e3⟩ := addAll_spec (cli.filterMap fun kv => kv.2.map fun v => (kv.1, v)) (c.push "<command line>")
        _ b1 "<command line>" rfl
      have hlog : (logOf name s []).1 ++ (cli.filterMap fun kv => kv.2.map fun v => (kv.1, v)).map
          (fun kv => Entry.set kv.1 kv.2 "<command line>") = fullLog (logOf name s []).1 cli := by
        simp only [fullLog, List.map_filterMap]
        congr 1
        congr 1
        funext kv
        cases kv.2 <;> rfl
      rw [hlog] at e2
      refine ⟨c'.pop, by simp only [Config.addCli, e1], by simp [Config.pop, e3, Config.push, hst, Config.new], ?_⟩
      intro k
      obtain ⟨g1, g2, g3⟩ := e2 k
      refine ⟨g1, rfl, ?_, g3⟩
      intro v f hvf
      have := g2 (by simp [hvf])
      simpa [Config.pop, hvf] using this

/-- **C18** Options given in the command line override any file. -/
theorem cli_overrides (name : String) (s : Script V) (hs : NoTry s) (cli : List (String × Option V))
    (hok : (logOf name s []).2 = none) (hnd : (cli.map Prod.fst).Nodup) (k : String) (v : V) (hk : (k, some v) ∈ cli) :
    ∃ c, configure name s cli = .ok c ∧ c.data k = some v ∧ c.file k = some "<command line>" := by
  obtain ⟨c, h1, _, h3⟩ := (configure_spec name s hs cli).2 hok
  have hcur : current k (fullLog (logOf name s []).1 cli) = some (v, "<command line>") := by
    have hops : ∀ log : List (Entry V), (ops k (fullLog log cli)).getLast? = some (some (v, "<command line>")) := by
      intro log
      have e : ops k (fullLog log cli) = ops k log ++ (cli.filterMap fun kv => if kv.1 = k then
          kv.2.map fun v => some (v, "<command line>") else none) := by
        simp only [ops, fullLog, List.filterMap_append, List.filterMap_filterMap]
        congr 1
        congr 1
        funext kv
        cases kv.2 with
        | none => simp
        | some v => by_cases hkv : kv.1 = k <;> simp [hkv]
      rw [e]
      have e2 : (cli.filterMap fun kv => if kv.1 = k then kv.2.map fun v => some (v, "<command line>") else none) =
          [some (v, "<command line>")] := by
        clear e h3 h1 hok
        induction cli with
        | nil => simp at hk
        | cons kv cli ih =>
          simp only [List.map_cons, List.nodup_cons] at hnd
          rcases List.mem_cons.1 hk with rfl | hk
          · have hnot : ∀ kv ∈ cli, ¬ kv.1 = k := fun kv hkv hc => hnd.1 (List.mem_map.2 ⟨kv, hkv, hc⟩)
            simp only [List.filterMap_cons, if_true, Option.map_some]
            congr 1
            rw [List.filterMap_eq_nil_iff]
            intro kv hkv
            rw [if_neg (hnot kv hkv)]
          · have hne : ¬ kv.1 = k := by
              intro hc
              exact hnd.1 (List.mem_map.2 ⟨(k, some v), hk, hc.symm⟩)
            simp only [List.filterMap_cons, if_neg hne]
            exact ih hnd.2 hk
      rw [e2]
      simp
    rw [current, hops]; rfl
  obtain ⟨g1, _, g3, _⟩ := h3 k
  exact ⟨c, h1, by rw [g1, hcur]; rfl, g3 v _ hcur⟩

/-- **C18** The namespace view cannot be modified. -/
theorem namespace_readonly (ns : String → Option V) (name : String) (v : V) :
    namespaceSetattr ns name v = (ns, some .typeError) := rfl

/-- A file including another one that overrides a value, then overriding it again, plus a command line. -/
def exScript : Script Nat :=
  .assign "a" (fun _ => 1) (.incl "inner.conf" (.assign "a" (fun d => (d "a").getD 0 + 10) (.assign "b" (fun _ => 2) .done))
    (.assign "a" (fun d => (d "b").getD 0 + 100) .done))
example : NoTry exScript := by simp [exScript, NoTry]
example : (configure "outer.conf" exScript [("b", some 7), ("z", none)]).toOption.map (fun c =>
      (c.data "a", c.file "a", c.history "a")) =
    some (some 102, some "outer.conf", [(1, "outer.conf"), (11, "inner.conf")]) := by decide
example : (configure "outer.conf" exScript [("b", some 7), ("z", none)]).toOption.map (fun c =>
      (c.data "b", c.file "b", c.history "b", c.data "z")) =
    some (some 7, some "<command line>", [(2, "inner.conf")], none) := by decide

/-- Finding: an included file that raises is not popped from the stack; if the including file catches the
exception, its later assignments are attributed to the wrong file. -/
example : (exec (.tryIncl "bad.conf" (.raise .valueError) (.assign "a" (fun _ => 1) .done)) (Config.new.push "top.conf" : Config Nat)).1.file "a"
    = some "bad.conf" ∧
    current "a" (logOf "top.conf" (.tryIncl "bad.conf" (.raise .valueError) (.assign "a" (fun _ => 1) .done) : Script Nat) []).1
    = some (1, "top.conf") := by decide

/-! ### C19 -/

private theorem allM_eq {α : Type} (f : α → Except PyErr Bool) (g : α → Bool) (xs : List α) (h : ∀ x ∈ xs, f x = .ok (g x)) :
    allM f xs = .ok (xs.all g) := by
  induction xs with
  | nil => rfl
  | cons x xs ih =>
    simp only [allM, h x List.mem_cons_self, List.all_cons]
    cases g x with
    | true => simpa using ih fun y hy => h y (List.mem_cons_of_mem _ hy)
    | false => simp

mutual
/-- On values whose containers have the shape asked for, `type_check` decides conformance. -/
theorem typeCheck_conforms_partial : ∀ (t : Ty) (v : Val), fits t v = true → typeCheck t v = .ok (conforms t v)
  | .bool, v, _ => by cases v <;> rfl
  | .int, v, _ => by cases v <;> rfl
  | .float, v, _ => by cases v <;> rfl
  | .seqAny, v, _ => by cases v <;> rfl
  | .cls name, v, _ => rfl
  | .missing, v, _ => rfl
  | .union ts, v, h => by
    simp only [fits] at h
    simp only [typeCheck, conforms]
    exact typeCheckAny_conforms ts v h
  | .seq t, v, h => by
    have ih := typeCheck_conforms_partial t
    cases v <;> simp only [fits, Bool.false_eq_true, List.all_eq_true] at h
    all_goals
      simp only [typeCheck, conforms, Val.iter]
      exact allM_eq _ _ _ fun x hx => ih x (h x hx)
  | .tuple ts, v, h => by
    cases v <;> simp only [fits, Bool.false_eq_true] at h
    simp only [typeCheck, conforms, Val.iter]
    exact typeCheckZip_conforms ts _ h
  | .mapping k w, v, h => by
    have ihk := typeCheck_conforms_partial k
    have ihw := typeCheck_conforms_partial w
    cases v <;> simp only [fits, Bool.false_eq_true, List.all_eq_true, Bool.and_eq_true] at h
    simp only [typeCheck, conforms, Val.items]
    apply allM_eq
    intro x hx
    rw [ihk x.1 (h x hx).1, ihw x.2 (h x hx).2]
    cases conforms k x.1 <;> simp
theorem typeCheckAny_conforms : ∀ (ts : Tys) (v : Val), fitsAny ts v = true → typeCheckAny ts v = .ok (conformsAny ts v)
  | .nil, v, _ => rfl
  | .cons t ts, v, h => by
    simp only [fitsAny, Bool.and_eq_true] at h
    simp only [typeCheckAny, conformsAny, typeCheck_conforms_partial t v h.1, typeCheckAny_conforms ts v h.2]
    cases conforms t v <;> simp
theorem typeCheckZip_conforms : ∀ (ts : Tys) (vs : List Val), fitsAll ts vs = true → typeCheckZip ts vs = .ok (conformsAll ts vs)
  | .nil, [], _ => rfl
  | .nil, _ :: _, h => by simp [fitsAll] at h
  | .cons _ _, [], h => by simp [fitsAll] at h
  | .cons t ts, v :: vs, h => by
    simp only [fitsAll, Bool.and_eq_true] at h
    simp only [typeCheckZip, conformsAll, typeCheck_conforms_partial t v h.1, typeCheckZip_conforms ts vs h.2]
    cases conforms t v <;> simp
end

/-- A call is acceptable: not too many positional arguments, all supplied values conform, no missing one. -/
def Acceptable (sig : List Param) (pos : List Val) (kw : List (String × Val)) : Prop :=
  let posPars := sig.filter (·.positional)
  let rest := posPars.drop pos.length ++ sig.filter (fun p => !p.positional)
  pos.length ≤ posPars.length ∧
  (∀ pv ∈ posPars.zip pos, conforms pv.1.ty pv.2 = true) ∧
  (∀ p ∈ rest, match kw.lookup p.name with
    | none => p.hasDefault = true
    | some v => conforms p.ty v = true)

/-- All supplied values that are checked have the container shapes of their annotations. -/
def AllFit (sig : List Param) (pos : List Val) (kw : List (String × Val)) : Prop :=
  (∀ pv ∈ (sig.filter (·.positional)).zip pos, fits pv.1.ty pv.2 = true) ∧
  ∀ p ∈ sig, ∀ v, kw.lookup p.name = some v → fits p.ty v = true

private theorem checkPositional_spec (ps : List Param) (vs : List Val) (hf : ∀ pv ∈ ps.zip vs, fits pv.1.ty pv.2 = true)
    (hle : vs.length ≤ ps.length) :
    ((∀ pv ∈ ps.zip vs, conforms pv.1.ty pv.2 = true) ∧ checkPositional ps vs = .ok (ps.drop vs.length)) ∨
    ((¬ ∀ pv ∈ ps.zip vs, conforms pv.1.ty pv.2 = true) ∧ checkPositional ps vs = .error .valueError) := by
  induction ps generalizing vs with
  | nil =>
    have : vs = [] := List.eq_nil_of_length_eq_zero (by simpa using hle)
    subst this
    left; simp [checkPositional]
  | cons p ps ih =>
    cases vs with
    | nil => left; simp [checkPositional]
    | cons v vs =>
      simp only [List.zip_cons_cons, List.forall_mem_cons] at hf ⊢
      simp only [checkPositional, typeCheck_conforms_partial p.ty v hf.1]
      cases hc : conforms p.ty v with
      | false => right; simp
      | true => simpa using ih vs hf.2 (by simpa using hle)

private theorem checkKeywords_spec (kw : List (String × Val)) (ps : List Param)
    (hf : ∀ p ∈ ps, ∀ v, kw.lookup p.name = some v → fits p.ty v = true) :
    ((∀ p ∈ ps, match kw.lookup p.name with | none => p.hasDefault = true | some v => conforms p.ty v = true) ∧
      checkKeywords kw ps = .ok ()) ∨
    ((¬ ∀ p ∈ ps, match kw.lookup p.name with | none => p.hasDefault = true | some v => conforms p.ty v = true) ∧
      checkKeywords kw ps = .error .valueError) := by
  induction ps with
  | nil => left; simp [checkKeywords]
  | cons p ps ih =>
    have ih := ih fun q hq => hf q (List.mem_cons_of_mem _ hq)
    simp only [List.forall_mem_cons, checkKeywords]
    cases hl : kw.lookup p.name with
    | none =>
      simp only
      cases hd : p.hasDefault with
      | false => right; simp
      | true => simpa using ih
    | some v =>
      simp only [typeCheck_conforms_partial p.ty v (hf p List.mem_cons_self v hl)]
      cases hc : conforms p.ty v with
      | false => right; simp
      | true => simpa using ih

/-- **C19** (partial) First call of a checked function: it raises `ValueError`, without running the function,
iff the call is not acceptable; otherwise the function runs with the same arguments, with one warning per
unknown keyword.  Missing: values whose containers do not have the shape of the annotation (see
`wrong_shape_type_error`, `tuple_length_unchecked`) and calls after the first one (`later_calls_unchecked`). -/
theorem checkedCall_spec_partial {R : Type} (sig : List Param) (f : List Val → List (String × Val) → Except PyErr R)
    (pos : List Val) (kw : List (String × Val)) (hf : AllFit sig pos kw) :
    (Acceptable sig pos kw → checkedCall sig f true pos kw =
      (f pos kw, (kw.map Prod.fst).filter (fun n => !(sig.map (·.name)).contains n), false)) ∧
    (¬ Acceptable sig pos kw → checkedCall sig f true pos kw = (.error .valueError, [], false)) := by
  unfold Acceptable checkedCall compareSignature
  simp only [if_true]
  by_cases hlen : (sig.filter (·.positional)).length < pos.length
  · rw [if_pos hlen]
    exact ⟨fun h => absurd h.1 (by omega), fun _ => rfl⟩
  · rw [if_neg hlen]
    have hrest : ∀ p ∈ (sig.filter (·.positional)).drop pos.length ++ sig.filter (fun p => !p.positional), p ∈ sig := by
      intro p hp
      rcases List.mem_append.1 hp with h | h
      · exact (List.mem_filter.1 (List.mem_of_mem_drop h)).1
      · exact (List.mem_filter.1 h).1
    rcases checkPositional_spec _ pos hf.1 (by omega) with ⟨h1, h2⟩ | ⟨h1, h2⟩
    · rw [h2]
      rcases checkKeywords_spec kw _ (fun p hp => hf.2 p (hrest p hp)) with ⟨g1, g2⟩ | ⟨g1, g2⟩
      · simp only [g2]
        exact ⟨fun _ => trivial, fun h => absurd ⟨by omega, h1, g1⟩ h⟩
      · simp only [g2]
        exact ⟨fun h => absurd h.2.2 g1, fun _ => trivial⟩
    · rw [h2]
      exact ⟨fun h => absurd h.2.1 h1, fun _ => rfl⟩

/-- **C19** (violation) Only the first call is checked. -/
theorem later_calls_unchecked {R : Type} (sig : List Param) (f : List Val → List (String × Val) → Except PyErr R)
    (pos : List Val) (kw : List (String × Val)) : checkedCall sig f false pos kw = (f pos kw, [], false) := rfl

/-- **C19** (violation) A scalar given where a sequence (or an optional tuple) is expected raises `TypeError`
instead of `ValueError`, and `None` is rejected by `Optional[Tuple[...]]`. -/
theorem wrong_shape_type_error :
    typeCheck (.seq .int) (.int 3) = .error .typeError ∧
    typeCheck (.union (.cons (.tuple (.cons .float (.cons .float .nil))) (.cons (.cls "NoneType") .nil))) .none = .error .typeError ∧
    typeCheck (.mapping (.cls "str") .int) (.list []) = .error .attributeError := by
  refine ⟨?_, ?_, ?_⟩ <;> rfl

/-- **C19** (violation) The number of components of a tuple is not checked. -/
theorem tuple_length_unchecked :
    typeCheck (.tuple (.cons .int (.cons .int .nil))) (.tuple [.int 1]) = .ok true ∧
    typeCheck (.tuple (.cons .int (.cons .int .nil))) (.tuple [.int 1, .int 2, .none]) = .ok true ∧
    conforms (.tuple (.cons .int (.cons .int .nil))) (.tuple [.int 1]) = false := by
  refine ⟨?_, ?_, ?_⟩ <;> rfl

/-- A signature with a positional parameter, a defaulted one and a keyword-only sequence. -/
def exSig : List Param := [⟨"a", .float, false, true⟩, ⟨"b", .union (.cons .int (.cons (.cls "NoneType") .nil)), true, true⟩,
  ⟨"c", .seq (.cls "str"), false, false⟩]
example : AllFit exSig [.int 1] [("c", .list [.str "x", .str "y"]), ("zz", .none)] ∧
    Acceptable exSig [.int 1] [("c", .list [.str "x", .str "y"]), ("zz", .none)] ∧
    AllFit exSig [.str "oops"] [("c", .list [])] ∧ ¬ Acceptable exSig [.str "oops"] [("c", .list [])] := by
  refine ⟨⟨?_, ?_⟩, ⟨?_, ?_, ?_⟩, ⟨?_, ?_⟩, ?_⟩ <;>
    simp [exSig, fits, fitsAny, conforms, conformsAny, Val.className, List.lookup, Acceptable]

end Verif.Configure
