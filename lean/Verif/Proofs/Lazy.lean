import Verif.Model.Lazy
import Verif.Proofs.Mono
import Verif.Proofs.Subs
/-!
# Validators that remember what they loaded

Replacing the subschemas of validators commutes with loading and running; the heap of lazy validators represents, at every
address, the fresh validator of its node.
-/

set_option linter.unusedSimpArgs false

namespace Verif
open Prog

variable {α β γ : Type}

/-! ## Replacing subschemas -/

/-- Replace the values of a dictionary. -/
def mapD (g : β → γ) (d : List (Str × β)) : List (Str × γ) := d.map fun p => (p.1, g p.2)

@[simp] theorem mapD_nil (g : β → γ) : mapD g [] = [] := rfl
@[simp] theorem mapD_cons (g : β → γ) (p : Str × β) (d : List (Str × β)) : mapD g (p :: d) = (p.1, g p.2) :: mapD g d := rfl

theorem dictGet_mapD (g : β → γ) (k : Str) (d : List (Str × β)) : dictGet k (mapD g d) = (dictGet k d).map g := by
  induction d with
  | nil => rfl
  | cons p d ih =>
    obtain ⟨k', y⟩ := p
    by_cases e : k' = k <;> simp_all [dictGet, mapD]

theorem dictHas_mapD (g : β → γ) (k : Str) (d : List (Str × β)) : dictHas k (mapD g d) = dictHas k d := by
  simp [dictHas, dictGet_mapD]

theorem dictSet_mapD (g : β → γ) (k : Str) (x : β) (d : List (Str × β)) : dictSet k (g x) (mapD g d) = mapD g (dictSet k x d) := by
  induction d with
  | nil => rfl
  | cons p d ih =>
    obtain ⟨k', y⟩ := p
    by_cases e : k' = k <;> simp_all [dictSet, mapD]

def Sub.map (g : α → β) : Sub α → Sub β
  | .fail => .fail
  | .lazy a => .lazy (g a)

def ObjV.map (g : α → β) (o : ObjV α) : ObjV β :=
  { props := mapD g o.props, patterns := o.patterns.map (mapD g), additional := o.additional.map (Sub.map g),
    unevaluated := o.unevaluated, names := o.names.map g }

section unit
variable (g : α → β)

theorem travL_unit (xs : List α) : travL (fun a (_ : Unit) => (g a, ())) xs () = (xs.map g, ()) := by
  induction xs with
  | nil => rfl
  | cons a as ih => simp [travL, ih]

theorem travD_unit (xs : List (Str × α)) : travD (fun a (_ : Unit) => (g a, ())) xs () = (mapD g xs, ()) := by
  induction xs with
  | nil => rfl
  | cons a as ih => simp [travD, ih]

theorem travO_unit (x : Option α) : travO (fun a (_ : Unit) => (g a, ())) x () = (x.map g, ()) := by
  cases x <;> rfl

@[simp] theorem V.map_maxV (n : Node) (m : Num) (e : Bool) : (maxV n m e).map g = maxV n m e := by unfold maxV; split <;> rfl
@[simp] theorem V.map_minV (n : Node) (m : Num) (e : Bool) : (minV n m e).map g = minV n m e := by unfold minV; split <;> rfl
@[simp] theorem V.map_contains (c : α) (mn : Int) (mx : Option Int) : (V.contains c mn mx).map g = .contains (g c) mn mx := rfl
@[simp] theorem V.map_array (p : Option (List α)) (i : Option α) : (V.array p i).map g = .array (p.map (List.map g)) (i.map g) := by
  cases p <;> simp [V.map, V.trav, travO, travL_unit] <;> cases i <;> rfl
@[simp] theorem V.map_object (o : ObjV α) : (V.object o).map g = .object (o.map g) := by
  obtain ⟨p, q, r, u, n⟩ := o
  rcases q with _ | q <;> rcases r with _ | (_ | r) <;> cases n <;>
    simp [V.map, V.trav, ObjV.map, travD_unit, travO, travSub, Sub.map]
@[simp] theorem V.map_dep (m : List (Str × α)) : (V.dependentSchemas m).map g = .dependentSchemas (mapD g m) := by
  simp [V.map, V.trav, travD_unit]
@[simp] theorem V.map_allOf (xs : List α) : (V.allOf xs).map g = .allOf (xs.map g) := by simp [V.map, V.trav, travL_unit]
@[simp] theorem V.map_anyOf (xs : List α) : (V.anyOf xs).map g = .anyOf (xs.map g) := by simp [V.map, V.trav, travL_unit]
@[simp] theorem V.map_oneOf (xs : List α) : (V.oneOf xs).map g = .oneOf (xs.map g) := by simp [V.map, V.trav, travL_unit]
@[simp] theorem V.map_not (x : α) : (V.not x).map g = .not (g x) := rfl
@[simp] theorem V.map_cond (i t e : Option α) : (V.cond i t e).map g = .cond (i.map g) (t.map g) (e.map g) := by
  cases i <;> cases t <;> cases e <;> rfl

end unit

theorem mapD_mapD {δ : Type} (g : α → β) (k : β → δ) (d : List (Str × α)) : mapD k (mapD g d) = mapD (k ∘ g) d := by simp [mapD]

theorem V.map_map {δ : Type} (g : α → β) (k : β → δ) (x : V α) : (x.map g).map k = x.map (k ∘ g) := by
  cases x with
  | array p i => cases p <;> cases i <;> simp
  | object o =>
    obtain ⟨p, q, r, u, n⟩ := o
    rcases q with _ | q <;> rcases r with _ | (_ | r) <;> cases n <;> simp [ObjV.map, mapD_mapD, Sub.map]
  | cond i t e => cases i <;> cases t <;> cases e <;> simp
  | dependentSchemas m => simp [mapD_mapD]
  | contains | allOf | anyOf | oneOf | not => simp
  | _ => rfl

theorem mapD_congr {g g' : α → β} {d : List (Str × α)} (h : ∀ p ∈ d, g p.2 = g' p.2) : mapD g d = mapD g' d := by
  unfold mapD
  exact List.map_congr_left fun p hp => by rw [h p hp]

theorem V.map_congr {g g' : α → β} {x : V α} (h : ∀ a ∈ x.subs, g a = g' a) : x.map g = x.map g' := by
  cases x with
  | array p i =>
    simp only [V.subs, List.mem_append, Option.mem_toList] at h
    simp only [V.map_array]
    congr 1
    · cases p with
      | none => rfl
      | some p => exact congrArg some (List.map_congr_left fun a ha => h a (.inl ha))
    · cases i with
      | none => rfl
      | some i => exact congrArg some (h i (.inr rfl))
  | object o =>
    obtain ⟨p, q, r, u, n⟩ := o
    simp only [V.subs, List.mem_append] at h
    simp only [V.map_object, ObjV.map]
    congr 2
    · exact mapD_congr fun a ha => h _ (.inl (.inl (.inl (List.mem_map.2 ⟨a, ha, rfl⟩))))
    · cases q with
      | none => rfl
      | some q => exact congrArg some (mapD_congr fun a ha => h _ (.inl (.inl (.inr (List.mem_map.2 ⟨a, ha, rfl⟩)))))
    · rcases r with _ | (_ | r)
      · rfl
      · rfl
      · exact congrArg (some ∘ Sub.lazy) (h r (.inl (.inr (by simp))))
    · cases n with
      | none => rfl
      | some n => exact congrArg some (h n (.inr (by simp)))
  | cond i t e =>
    simp only [V.subs, List.mem_append, Option.mem_toList] at h
    simp only [V.map_cond]
    congr 1
    · cases i with
      | none => rfl
      | some i => exact congrArg some (h i (.inl (.inl rfl)))
    · cases t with
      | none => rfl
      | some i => exact congrArg some (h i (.inl (.inr rfl)))
    · cases e with
      | none => rfl
      | some i => exact congrArg some (h i (.inr rfl))
  | dependentSchemas m => simpa using mapD_congr fun p hp => h _ (List.mem_map.2 ⟨p, hp, rfl⟩)
  | contains c => simp [h c (by simp [V.subs])]
  | not c => simp [h c (by simp [V.subs])]
  | allOf xs => simpa [V.subs] using h
  | anyOf xs => simpa [V.subs] using h
  | oneOf xs => simpa [V.subs] using h
  | _ => rfl

theorem V.map_id (x : V α) : x.map (fun a => a) = x := by
  have hD : ∀ d : List (Str × α), mapD (fun a => a) d = d := fun d => by simp [mapD]
  cases x with
  | array p i => cases p <;> cases i <;> simp
  | object o =>
    obtain ⟨p, q, r, u, n⟩ := o
    rcases q with _ | q <;> rcases r with _ | (_ | r) <;> cases n <;> simp [ObjV.map, hD, Sub.map]
  | cond i t e => cases i <;> cases t <;> cases e <;> simp
  | dependentSchemas m => simp [hD]
  | contains | allOf | anyOf | oneOf | not => simp
  | _ => rfl

theorem Data.map_eq (g : α → β) (d : Data α) : d.map g = mapD (V.map g) d := rfl

theorem Data.map_map {δ : Type} (g : α → β) (k : β → δ) (d : Data α) : (d.map g).map k = d.map (k ∘ g) := by
  simp [Data.map, V.map_map, Function.comp_def]

theorem Data.map_congr {g g' : α → β} {d : Data α} (h : ∀ p ∈ d, ∀ a ∈ p.2.subs, g a = g' a) : d.map g = d.map g' := by
  unfold Data.map
  exact List.map_congr_left fun p hp => by rw [V.map_congr (h p hp)]

/-! ## Loading -/

def Upd.map (g : α → β) : Upd α → Upd β
  | .nop => .nop
  | .set x => .set (x.map g)
  | .props kvs => .props (mapD g kvs)
  | .patterns kvs => .patterns (mapD g kvs)
  | .additional s => .additional (s.map (Sub.map g))
  | .unevaluated b => .unevaluated b
  | .names a => .names (g a)
  | .ifs a => .ifs (g a)
  | .thens a => .thens (g a)
  | .elses a => .elses (g a)
  | .itemsArr ps its => .itemsArr (ps.map g) (its.map g)
  | .itemsOne its => .itemsOne (its.map g)
  | .pre xs => .pre (xs.map g)

/-- Apply a function to a result. -/
def Res.fmap (g : β → γ) (x : Res β) : Res γ := x >>= fun b => .ok (g b)

@[simp] theorem Res.fmap_ok (g : β → γ) (b : β) : Res.fmap g (.ok b) = .ok (g b) := rfl
@[simp] theorem Res.fmap_err (g : β → γ) (e : PyErr) : Res.fmap g (.err e) = .err e := rfl
@[simp] theorem Res.fmap_timeout (g : β → γ) : Res.fmap g .timeout = .timeout := rfl

section
variable (w : World) (vw : Node → Res Node) (mk : Node → α) (g : α → β) (items : List (Str × Node))

theorem subKey_map (k : Str) : subKey vw (g ∘ mk) items k = Res.fmap g (subKey vw mk items k) := by
  unfold subKey Res.fmap
  simp only [Res.bind_assoc]
  refine Res.bind_congr _ fun n => Res.bind_congr _ fun m => ?_
  cases m <;> rfl

theorem subsKey_map (k : Str) : subsKey vw (g ∘ mk) items k = Res.fmap (List.map g) (subsKey vw mk items k) := by
  unfold subsKey Res.fmap
  simp only [Res.bind_assoc]
  refine Res.bind_congr _ fun n => Res.bind_congr _ fun m => ?_
  cases m <;> simp [Res.bind_assoc]

theorem subMapKey_map (k : Str) : subMapKey vw (g ∘ mk) items k = Res.fmap (mapD g) (subMapKey vw mk items k) := by
  unfold subMapKey Res.fmap
  simp only [Res.bind_assoc]
  refine Res.bind_congr _ fun n => Res.bind_congr _ fun m => ?_
  cases m <;> simp [mapD]

theorem readKw_map (k : Kw) : readKw w vw (g ∘ mk) items k = Res.fmap (Upd.map g) (readKw w vw mk items k) := by
  cases k with
  | contains =>
    simp only [readKw, subKey_map, Res.fmap, Res.bind_assoc, Res.ok_bind]
    refine Res.bind_congr _ fun n => ?_
    split <;> split <;> simp [Res.bind_assoc] <;> rfl
  | items =>
    simp only [readKw, Res.fmap, Res.bind_assoc]
    refine Res.bind_congr _ fun n => Res.bind_congr _ fun m => ?_
    cases m with
    | arr xs =>
      cases dictGet c!"additionalItems" items with
      | none => simp [Upd.map, Res.bind_assoc]
      | some a =>
        simp only [Res.bind_assoc]
        refine Res.bind_congr _ fun ys => Res.bind_congr _ fun y => ?_
        cases y <;> (try simp [Upd.map]) <;> (rename_i b; cases b <;> simp [Upd.map])
    | bool b => cases b <;> simp [Upd.map]
    | _ => simp [Upd.map]
  | additionalProperties =>
    simp only [readKw, Res.fmap, Res.bind_assoc]
    refine Res.bind_congr _ fun n => Res.bind_congr _ fun m => ?_
    cases m with
    | bool b => cases b <;> simp [Upd.map, Sub.map]
    | _ => simp [Upd.map, Sub.map]
  | prefixItems | properties | patternProperties | propertyNames | dependentSchemas | allOf | anyOf | oneOf | not | «if» | «then» | «else» =>
    simp only [readKw, Res.fmap, subKey_map, subsKey_map, subMapKey_map, Res.bind_assoc, Res.ok_bind, Upd.map, V.map_dep, V.map_allOf,
      V.map_anyOf, V.map_oneOf, V.map_not]
  | _ =>
    simp only [readKw, Res.fmap, Res.bind_assoc, Res.ok_bind]
    repeat' first
      | rfl
      | (simp only [Res.ok_bind, Upd.map, V.map_maxV, V.map_minV]; done)
      | (refine Res.bind_congr _ fun _ => ?_)
      | (rw [Res.bind_assoc]; refine Res.bind_congr _ fun _ => ?_)
      | split

theorem objIn_map (o : Option (V α)) : objIn (o.map (V.map g)) = (objIn o).map g := by
  rcases o with _ | x
  · rfl
  · cases x <;> simp [objIn] <;> rfl

theorem condIn_map (o : Option (V α)) :
    condIn (o.map (V.map g)) = ((condIn o).1.map g, (condIn o).2.1.map g, (condIn o).2.2.map g) := by
  rcases o with _ | x
  · rfl
  · cases x <;> simp [condIn] <;> rfl

theorem arrayIn_map (o : Option (V α)) : arrayIn (o.map (V.map g)) = ((arrayIn o).1.map (List.map g), (arrayIn o).2.map g) := by
  rcases o with _ | x
  · rfl
  · cases x <;> simp [arrayIn] <;> rfl

theorem foldl_set_map (kvs p : List (Str × α)) :
    (mapD g kvs).foldl (fun p x => dictSet x.1 x.2 p) (mapD g p) = mapD g (kvs.foldl (fun p x => dictSet x.1 x.2 p) p) := by
  induction kvs generalizing p with
  | nil => rfl
  | cons x kvs ih => simp [dictSet_mapD, ih]

theorem Upd.apply_map (key : Str) (u : Upd α) (d : Data α) :
    (u.map g).apply key (d.map g) = Res.fmap (Data.map g) (u.apply key d) := by
  have or_map : ∀ {δ ε : Type} (k : δ → ε) (x y : Option δ), (x.map k).or (y.map k) = (x.or y).map k := by
    intro δ ε k x y; cases x <;> rfl
  cases u with
  | pre xs =>
    simp only [Upd.map, Upd.apply, Data.map_eq, dictHas_mapD, arrayOf_in, dictGet_mapD, arrayIn_map]
    split
    · split
      · simp [← dictSet_mapD, Data.map_eq]
      · rfl
    · simp [← dictSet_mapD, Data.map_eq]
  | nop => rfl
  | set x => simp [Upd.map, Upd.apply, Data.map_eq, dictSet_mapD]
  | props kvs =>
    simp [Upd.map, Upd.apply, setObj, Data.map_eq, objOf_in, dictGet_mapD, objIn_map, ← dictSet_mapD, ObjV.map, ← foldl_set_map]
  | patterns kvs => simp [Upd.map, Upd.apply, setObj, Data.map_eq, objOf_in, dictGet_mapD, objIn_map, ← dictSet_mapD, ObjV.map]
  | additional s => simp [Upd.map, Upd.apply, setObj, Data.map_eq, objOf_in, dictGet_mapD, objIn_map, ← dictSet_mapD, ObjV.map, or_map]
  | unevaluated b => simp [Upd.map, Upd.apply, setObj, Data.map_eq, objOf_in, dictGet_mapD, objIn_map, ← dictSet_mapD, ObjV.map]
  | names a => simp [Upd.map, Upd.apply, setObj, Data.map_eq, objOf_in, dictGet_mapD, objIn_map, ← dictSet_mapD, ObjV.map]
  | ifs a => simp [Upd.map, Upd.apply, Data.map_eq, condOf_in, dictGet_mapD, condIn_map, ← dictSet_mapD]
  | thens a => simp [Upd.map, Upd.apply, Data.map_eq, condOf_in, dictGet_mapD, condIn_map, ← dictSet_mapD]
  | elses a => simp [Upd.map, Upd.apply, Data.map_eq, condOf_in, dictGet_mapD, condIn_map, ← dictSet_mapD]
  | itemsArr ps its => simp [Upd.map, Upd.apply, Data.map_eq, arrayOf_in, dictGet_mapD, arrayIn_map, ← dictSet_mapD, or_map]
  | itemsOne its => simp [Upd.map, Upd.apply, Data.map_eq, arrayOf_in, dictGet_mapD, arrayIn_map, ← dictSet_mapD, or_map]

theorem loadAll_map (voc : List Kw) (d : Data α) :
    loadAll w vw (g ∘ mk) items voc (d.map g) = ((loadAll w vw mk items voc d).1.map g, (loadAll w vw mk items voc d).2) := by
  induction voc generalizing d with
  | nil => rfl
  | cons k ks ih =>
    rw [loadAll, loadAll]
    split
    · rw [applyKw_eq, applyKw_eq, readKw_map]
      cases readKw w vw mk items k with
      | ok u =>
        simp only [Res.fmap_ok, Res.ok_bind, Upd.apply_map]
        cases u.apply k.key d with
        | ok d' => exact ih d'
        | err e => rfl
        | timeout => rfl
      | err e => rfl
      | timeout => rfl
    · exact ih d

end

/-! ## Running -/

/-- Replace the subschemas that are called. -/
def Prog.map {β : Type} (g : α → γ) : Prog α β → Prog γ β
  | .done r => .done r
  | .call a v c k => .call (g a) v c fun r => (k r).map g

section
variable (g : α → γ)

@[simp] theorem Prog.map_done (r : Res β) : Prog.map g (.done r : Prog α β) = .done r := rfl
@[simp] theorem Prog.map_ask (a : α) (v : Val) (c : Ctx) : Prog.map g (ask a v c) = ask (g a) v c := rfl
@[simp] theorem Prog.map_tryAsk (a : α) (v : Val) (c : Ctx) : Prog.map g (tryAsk a v c) = tryAsk (g a) v c := rfl
@[simp] theorem Prog.map_bind {δ : Type} (p : Prog α β) (q : β → Prog α δ) :
    Prog.map g (p.bind q) = (Prog.map g p).bind fun b => Prog.map g (q b) := by
  induction p with
  | done r => cases r <;> rfl
  | call a v c k ih => simp [Prog.bind, Prog.map, ih]

theorem bind_fun_congr {δ : Type} (p : Prog γ β) {q q' : β → Prog γ δ} (h : ∀ b, q b = q' b) : p.bind q = p.bind q' := by
  rw [funext h]

theorem allOfP_map (v : Val) (ctx : Ctx) (xs : List α) : allOfP v ctx (xs.map g) = Prog.map g (allOfP v ctx xs) := by
  induction xs with
  | nil => rfl
  | cons a as ih => simp [allOfP, ih]

theorem anyOfP_map (v : Val) (ctx : Ctx) (l : Option VErr) (xs : List α) : anyOfP v ctx l (xs.map g) = Prog.map g (anyOfP v ctx l xs) := by
  induction xs generalizing l with
  | nil => rfl
  | cons a as ih =>
    simp only [List.map_cons, anyOfP, Prog.map_bind, Prog.map_tryAsk]
    refine bind_fun_congr _ fun r => ?_
    cases r with
    | none => rfl
    | some e => exact ih _

theorem oneOfP_map (v : Val) (ctx : Ctx) (n : Nat) (l : Option VErr) (xs : List α) :
    oneOfP v ctx n l (xs.map g) = Prog.map g (oneOfP v ctx n l xs) := by
  induction xs generalizing n l with
  | nil => rfl
  | cons a as ih =>
    simp only [List.map_cons, oneOfP, Prog.map_bind, Prog.map_tryAsk]
    refine bind_fun_congr _ fun r => ?_
    cases r with
    | none => exact ih _ _
    | some e => exact ih _ _

theorem containsP_map (c : α) (n : Nat) (xs : List Val) : containsP (g c) n xs = Prog.map g (containsP c n xs) := by
  induction xs generalizing n with
  | nil => rfl
  | cons a as ih =>
    simp only [containsP, Prog.map_bind, Prog.map_tryAsk]
    refine bind_fun_congr _ fun r => ?_
    cases r with
    | none => exact ih _
    | some e => exact ih _

theorem spinP_map (p : α) (ctx : Ctx) (f : Nat) : spinP (g p) ctx f = Prog.map g (spinP p ctx f) := by
  induction f with
  | zero => rfl
  | succ f ih =>
    simp only [spinP, Prog.map]
    congr 1
    funext r
    cases r with
    | ok _ => exact ih
    | err e => rfl
    | timeout => rfl

theorem itemsP_map (it : α) (ctx : Ctx) (i : Nat) (xs : List Val) : itemsP (g it) ctx i xs = Prog.map g (itemsP it ctx i xs) := by
  induction xs generalizing i with
  | nil => rfl
  | cons a as ih => simp [itemsP, ih]

theorem arrayP_map (f : Nat) (items : Option α) (ctx : Ctx) (i : Nat) (ps : List α) (xs : List Val) :
    arrayP f (items.map g) ctx i (ps.map g) xs = Prog.map g (arrayP f items ctx i ps xs) := by
  induction ps generalizing i xs with
  | nil => cases items <;> simp [arrayP, itemsP_map]
  | cons p ps ih =>
    cases xs with
    | nil => simp [arrayP, spinP_map]
    | cons x xs => simp [arrayP, ih]

theorem patternP_map (w : World) (k : Str) (x : Val) (ctx : Ctx) (ev : Bool) (ps : List (Str × α)) :
    patternP w k x ctx ev (mapD g ps) = Prog.map g (patternP w k x ctx ev ps) := by
  induction ps generalizing ev with
  | nil => rfl
  | cons q ps ih =>
    obtain ⟨p, a⟩ := q
    simp only [mapD_cons, patternP]
    cases w.search p with
    | none => rfl
    | some m =>
      simp only
      split
      · simp [ih]
      · exact ih _

theorem objectItemP_map (w : World) (o : ObjV α) (k : Str) (x : Val) (ctx : Ctx) :
    objectItemP w (o.map g) k x ctx = Prog.map g (objectItemP w o k x ctx) := by
  obtain ⟨p, q, r, u, n⟩ := o
  unfold objectItemP
  simp only [ObjV.map, Prog.map_bind]
  congr 1
  · cases n <;> rfl
  · funext _
    rw [dictGet_mapD]
    cases dictGet k p with
    | some a => rfl
    | none =>
      simp only [Option.map_none, Prog.map_bind]
      congr 1
      · cases q with
        | none => rfl
        | some q => exact patternP_map g w k x _ _ q
      · funext b
        cases b
        · rcases r with _ | (_ | r) <;> rfl
        · rfl

theorem objectP_map (w : World) (o : ObjV α) (ctx : Ctx) (kvs : List (Str × Val)) :
    objectP w (o.map g) ctx kvs = Prog.map g (objectP w o ctx kvs) := by
  induction kvs with
  | nil => rfl
  | cons p kvs ih => obtain ⟨k, x⟩ := p; simp [objectP, ih, objectItemP_map]

theorem depSchemasP_map (kvs : List (Str × Val)) (ctx : Ctx) (m : List (Str × α)) :
    depSchemasP kvs ctx (mapD g m) = Prog.map g (depSchemasP kvs ctx m) := by
  induction m with
  | nil => rfl
  | cons p m ih =>
    obtain ⟨k, a⟩ := p
    simp only [mapD_cons, depSchemasP, Prog.map_bind, ih]
    congr 1
    split <;> rfl

theorem prog_map (w : World) (f : Nat) (x : V α) (v : Val) (ctx : Ctx) : prog w f (x.map g) v ctx = Prog.map g (prog w f x v ctx) := by
  cases x with
  | contains c mn mx => simp [prog, runContainsP, containsP_map]
  | array p i =>
    simp only [V.map_array, prog, runArrayP]
    cases v <;> try rfl
    cases p with
    | none => exact arrayP_map g f i ctx 0 [] _
    | some p => exact arrayP_map g f i ctx 0 p _
  | object o =>
    simp only [V.map_object, prog]
    cases v <;> try rfl
    exact objectP_map ..
  | dependentSchemas m =>
    simp only [V.map_dep, prog]
    cases v <;> try rfl
    exact depSchemasP_map ..
  | allOf xs => simp [prog, allOfP_map]
  | anyOf xs => simp [prog, anyOfP_map]
  | oneOf xs => simp [prog, runOneOfP, oneOfP_map]
  | not x =>
    simp only [V.map_not, prog, notP, Prog.map_bind, Prog.map_tryAsk]
    refine bind_fun_congr _ fun r => ?_
    cases r <;> rfl
  | cond i t e =>
    simp only [V.map_cond, prog, condP]
    cases i with
    | none => rfl
    | some i =>
      simp only [Option.map_some, Prog.map_bind, Prog.map_tryAsk]
      refine bind_fun_congr _ fun r => ?_
      cases r with
      | none => cases t <;> rfl
      | some _ => cases e <;> rfl
  | _ => rfl

theorem progAll_map (w : World) (f : Nat) (v : Val) (ctx : Ctx) (d : Data α) :
    progAll w f v ctx (d.map g) = Prog.map g (progAll w f v ctx d) := by
  induction d with
  | nil => rfl
  | cons p d ih =>
    simp only [Data.map, List.map_cons, progAll, Prog.map_bind, prog_map] at ih ⊢
    rw [ih]

end

theorem Prog.map_congr {g g' : α → γ} {P : α → Prop} (h : ∀ a, P a → g a = g' a) {p : Prog α β} (hp : p.Uses P) :
    Prog.map g p = Prog.map g' p := by
  induction p with
  | done r => rfl
  | call a v c k ih =>
    simp only [Prog.map]
    rw [h a hp.1]
    congr 1
    funext r
    exact ih r (hp.2 r)

end Verif
