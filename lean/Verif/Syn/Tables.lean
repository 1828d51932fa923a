import Verif.Parse.Engine

/-!
# The optimizer of the parsing tables

Model of `/repo/src/compiler/synt-optimize.cc` and of the functions of `/repo/src/compiler/synt-sm.cc` it uses,
and an interpreter of the tables with the parts that are common to the parser of the cross compiler
(`/repo/src/compiler/parser.cc`) and to the parser of the native compiler (`/repo/src/parse.asm`).
-/

namespace FB.Syn

open FB.Parse (Str Act DCode PCode Table)

/-- A `statemachine`, `/repo/src/compiler/synt-sm.h:86-103`: name, lines and the flag `complete`. Names are numbers
(only equality and order matter) and the text of the description is left out. -/
structure SM where
  name : Nat
  lines : List (List PCode)
  complete : Bool
deriving DecidableEq, Repr

/-- `sm_list::sms`, `/repo/src/compiler/synt-sm-list.h:31-40`: the tables in the order of the map. -/
abbrev SMs := List SM

/-- Is the code a call to table `n`? `synt-sm.cc:267,286`. -/
def isCall (n : Nat) : PCode → Bool
  | .call t => t == n
  | _ => false

/-- `has_call`, `synt-sm.cc:261-269`. -/
def hasCall (n : Nat) (ls : List (List PCode)) : Nat := (ls.map fun l => l.countP (isCall n)).sum

/-- `is_empty`, `synt-sm.cc:271-275`. -/
def isEmpty (s : SM) : Bool := s.lines == [] || s.lines == [[.ret]]

/-- `delete_call`, `synt-sm.cc:277-289`. -/
def delCall (n : Nat) (s : SM) : SM := { s with lines := s.lines.map fun l => l.filter fun c => !isCall n c }

/-- `end_call`, `synt-sm.cc:291-301`. -/
def endCall (n : Nat) (s : SM) : Bool := s.lines.getLast? == some [.call n, .ret]

/-- `just_call`, `synt-sm.cc:303-313`. -/
def justCall (n : Nat) (s : SM) : Bool := s.lines.any (· == [.call n, .ret])

/-- `tail_call`, `synt-sm.cc:359-371`; `none` is `return p.error(…)`. -/
def tailCall (s src : SM) : Option SM :=
  if s.complete then none
  else if s.lines = [] then none
  else some { s with lines := s.lines.dropLast ++ src.lines, complete := src.complete }

/-- The new lines in `inline_call`, `synt-sm.cc:378-391`. -/
def inlineLines (n : Nat) (src : List (List PCode)) : List (List PCode) → List (List PCode)
  | [] => []
  | l :: ls => (if l = [.call n, .ret] then src else [l]) ++ inlineLines n src ls

/-- `inline_call`, `synt-sm.cc:373-394`; `none` is `return p.error(…)`. -/
def inlineCall (n : Nat) (s src : SM) : Option SM :=
  if src.complete then none else some { s with lines := inlineLines n src.lines s.lines }

/-- The first loop of `optimize` on one line, `synt-sm.cc:399-413`: joins consecutive emits. -/
def joinEmits : List PCode → List PCode
  | .emit a :: .emit b :: cs => joinEmits (.emit (a ++ b) :: cs)
  | c :: cs => c :: joinEmits cs
  | [] => []
termination_by l => l.length

/-- The second loop of `optimize` on one line, `synt-sm.cc:415-427`: emit and return. -/
def joinRet : List PCode → List PCode
  | .emit a :: .ret :: cs => .emitRet a :: joinRet cs
  | c :: cs => c :: joinRet cs
  | [] => []

/-- `statemachine::optimize` on one line, `synt-sm.cc:396-428`. -/
def optLine (l : List PCode) : List PCode := joinRet (joinEmits l)

/-- `statemachine::optimize`, `synt-sm.cc:396-428`. -/
def optSM (s : SM) : SM := { s with lines := s.lines.map optLine }

/-- `sms.find`. -/
def get (sl : SMs) (n : Nat) : Option SM := sl.find? fun s => s.name == n

/-- Replaces the table with the name of `s`. -/
def set (sl : SMs) (s : SM) : SMs := sl.map fun x => if x.name = s.name then s else x

/-- The references of table `n`, `synt-optimize.cc:41-44`. `start` is the name `PARSE_START`. -/
def uses (start n : Nat) (sl : SMs) : Nat := (if n = start then 1 else 0) + (sl.map fun s => hasCall n s.lines).sum

/-- How a loop of `syntax_merge` ends: normally (with the list `to_delete`), with `return false`, or with undefined
behaviour (`tail_call` of a table to itself writes to the vector it is reading). -/
inductive Merge
  | done (sl : SMs) (del : List Nat)
  | error (sl : SMs)
  | undefined

/-- The loop over `sm2`, `synt-optimize.cc:52-79`, for table `n`. The first argument is the list of names not yet visited. -/
def mergeInto (n : Nat) : List Nat → SMs → List Nat → Merge
  | [], sl, del => .done sl del
  | o :: os, sl, del =>
    match get sl n, get sl o with
    | some src, some s =>
      if endCall n s then
        if o = n then .undefined
        else match tailCall s src with
          | none => .error sl
          | some s' => mergeInto n os (set sl s') (del ++ [n])
      else if justCall n s then
        match inlineCall n s src with
        | none => .error sl
        | some s' => mergeInto n os (set sl s') (del ++ [n])
      else mergeInto n os sl del
    | _, _ => mergeInto n os sl del

/-- The loop over `sm`, `synt-optimize.cc:38-81`. The first argument is the list of names not yet visited. -/
def mergeLoop (start : Nat) : List Nat → SMs → List Nat → Merge
  | [], sl, del => .done sl del
  | n :: ns, sl, del =>
    if uses start n sl = 0 then .error sl
    else if uses start n sl = 1 then
      match mergeInto n (sl.map SM.name) sl del with
      | .done sl' del' => mergeLoop start ns sl' del'
      | r => r
    else mergeLoop start ns sl del

/-- `sms.erase` for a list of names, `synt-optimize.cc:82-84,116-118`. -/
def erase (del : List Nat) (sl : SMs) : SMs := sl.filter fun s => !del.contains s.name

/-- `syntax_merge`, `synt-optimize.cc:24-86`: the result and the tables; `none` is undefined behaviour. -/
def syntaxMerge (start : Nat) (sl : SMs) : Option (Bool × SMs) :=
  match mergeLoop start (sl.map SM.name) sl [] with
  | .done sl' del => some (true, erase del sl')
  | .error sl' => some (false, sl')
  | .undefined => none

/-- The loop that deletes empty tables, `synt-optimize.cc:98-114`. The first argument is the list of names not yet visited. -/
def emptyLoop : List Nat → SMs → List Nat → SMs × List Nat
  | [], sl, del => (sl, del)
  | n :: ns, sl, del =>
    match get sl n with
    | some s => if isEmpty s then emptyLoop ns (sl.map (delCall n)) (del ++ [n]) else emptyLoop ns sl del
    | none => emptyLoop ns sl del

/-- The part of `syntax_optimize` after the merge, `synt-optimize.cc:96-125`. -/
def syntaxClean (sl : SMs) : SMs :=
  let r := emptyLoop (sl.map SM.name) sl []
  (erase r.2 r.1).map optSM

/-- `syntax_optimize`, `synt-optimize.cc:88-125`: the result and the tables; `none` is undefined behaviour. -/
def syntaxOptimize (start : Nat) (merge : Bool) (sl : SMs) : Option (Bool × SMs) :=
  if merge then
    match syntaxMerge start sl with
    | none => none
    | some (false, sl') => some (false, sl')
    | some (true, sl') => some (true, syntaxClean sl')
  else some (true, syntaxClean sl)

/-! ## The interpreter -/

/-- The state of a parser: position in the line, length and contents of the buffer of code, and the rest of the state (tables of
variables, labels, stack of loops and so on, only used by the actions). `parse.asm:40-62`. -/
structure St (X ρ : Type) where
  pos : Nat
  opos : Nat
  buf : Nat → X
  rest : ρ

/-- The result of a line or table: success, failure, or the end of the compilation with an error. -/
inductive Out (X ρ : Type)
  | ok (s : St X ρ)
  | fail (s : St X ρ)
  | stop

/-- The result of matching a text: the two last ones are success, in `dot` by an abbreviation that also replaces the next literals. -/
inductive LitRes (X ρ : Type)
  | no (s : St X ρ)
  | yes (s : St X ρ)
  | dot (s : St X ρ)

/-- What a parser does with the parts of the tables: the text parsed, the blanks (only the space in the native compiler, SKBLANK; tabs too in the
cross compiler, `/repo/src/compiler/parser.h`, `skipws`), the number of bytes at which the code of a statement is too
long (0 is no limit), the bytes emitted by a code, the matching of literals and the actions. All of them are arbitrary. -/
structure Conf (X ρ : Type) where
  txt : Str
  blank : Nat → Bool
  lim : Nat
  enc : DCode → List X
  lit : Str → St X ρ → LitRes X ρ
  act : Act → St X ρ → Out X ρ

section
variable {X ρ : Type} (C : Conf X ρ)

/-- The number of blanks at the start of a text. -/
def blanks (p : Nat → Bool) : Str → Nat
  | [] => 0
  | c :: cs => if p c then blanks p cs + 1 else 0

/-- `parser_skipws`, `/repo/src/parse.asm:76-79`; `skipws`, `parser.h`. -/
def Conf.skip (s : St X ρ) : St X ρ := { s with pos := s.pos + blanks C.blank (C.txt.drop s.pos) }

/-- `ploop_line`, `parse.asm:270-275`; `save`, `parser.h`. -/
def St.mark (s : St X ρ) : Nat × Nat := (s.pos, s.opos)

/-- `ploop_nextline`, `parse.asm:407-415`; `restore`, `parser.h`. The maximal position `bmax` is not modelled. -/
def St.back (k : Nat × Nat) (s : St X ρ) : St X ρ := { s with pos := k.1, opos := k.2 }

/-- Emits bytes: `emit_const`, `parse.asm:150-158`. -/
def Conf.put : List X → St X ρ → Out X ρ
  | [], s => .ok s
  | x :: xs, s =>
    let s' : St X ρ := { s with opos := s.opos + 1, buf := fun i => if i = s.opos then x else s.buf i }
    if s.opos + 1 = C.lim then .stop else Conf.put xs s'

/-- One line of a table: `ploop`, `parse.asm:278-345`; `parse_line`, `/repo/src/compiler/parser.cc:116-146`. `tab` interprets a table
(`none`: the number of nested calls followed is not enough). With `b` literals are skipped (`skip_chars`, `parse.asm:388-394`). -/
def line (tab : Nat → St X ρ → Option (Out X ρ)) : Bool → List PCode → St X ρ → Option (Out X ρ)
  | _, [], s => some (.ok s)
  | true, .lit _ :: cs, s => line tab true cs s
  | false, .lit l :: cs, s =>
    match C.lit l s with
    | .no s => some (.fail s)
    | .yes s => line tab false cs s
    | .dot s => line tab true cs s
  | _, .emit d :: cs, s =>
    match C.put (d.flatMap C.enc) s with
    | .ok s => line tab false cs s
    | r => some r
  | _, .emitRet d :: _, s => some (C.put (d.flatMap C.enc) s)
  | _, .ext a :: cs, s =>
    match C.act a s with
    | .ok s => line tab false cs s
    | r => some r
  | _, .call t :: cs, s =>
    match tab t s with
    | some (.ok s) => line tab false cs s
    | r => r
  | _, .ret :: _, s => some (.ok s)

/-- The lines of a table in order: `ploop_line` to `ploop_nextline`, `parse.asm:269-457`; `parse_table`, `parser.cc:158-171`. -/
def lines (tab : Nat → St X ρ → Option (Out X ρ)) (k : Nat × Nat) : List (List PCode) → St X ρ → Option (Out X ρ)
  | [], s => some (.fail s)
  | l :: ls, s =>
    match line C tab false l s with
    | some (.fail s) => lines tab k ls (s.back k)
    | r => r

/-- A table: `parser_sub`, `parse.asm:256-267`; `parse_table`, `parser.cc:148-172`. The second argument is the number of nested calls
that are followed; the limits of the stack of the parsers are not modelled. -/
def table (sl : SMs) : Nat → Nat → St X ρ → Option (Out X ρ)
  | 0, _, _ => none
  | m + 1, t, s =>
    match get sl t with
    | none => some .stop
    | some T => lines C (table sl m) (C.skip s).mark T.lines (C.skip s)

/-- Matching a literal in the native compiler: `match_char`, `matched_dot`, `/repo/src/parse.asm:301-315,386-390`. Lower case letters in the tables can be
abbreviated with a dot. -/
def litMatch (txt : Str) : Str → St X ρ → LitRes X ρ
  | [], s => .yes s
  | c :: cs, s =>
    let s' : St X ρ := { s with pos := s.pos + 1 }
    if 97 ≤ c then
      if txt[s.pos]? = some 46 then .dot s'
      else if txt[s.pos]? = some (c ^^^ 32) then litMatch txt cs s' else .no s
    else if txt[s.pos]? = some c then litMatch txt cs s' else .no s

/-- The result of parsing with table `t`, if the parsing ends. -/
def Parses (sl : SMs) (t : Nat) (s : St X ρ) (r : Out X ρ) : Prop := ∃ m, table C sl m t s = some r

end

end FB.Syn
