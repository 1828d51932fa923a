#!/usr/bin/env python3
"""Writes lean/Verif/Parse/Frame.lean: for each operation of the parser model and each field of the
state that the operation does not change, a simp lemma saying so.  The output is checked by Lean."""
FIELDS = "str pos maxPos errs trail lvl linenum expand varStk procs procStack vars labels jumps labelNum lastLabel curParams lastVar".split()
E = "maxPos errs trail"
# name, binders, term, changed fields, proof
U = lambda d: f"by\n  unfold {d}; (repeat' split) <;> rfl"
S = lambda d, extra="": f"by\n  unfold {d}; (repeat' split) <;> simp{extra}"
ops = [
 ("setCode","(s : PS) (c : List CW)","(s.setCode c)","procs","rfl"),
 ("emit","(s : PS) (k : CK)","(s.emit k)","procs","rfl"),
 ("error","(s : PS) (m : Str)","(s.error m)",E,"by\n  simp only [PS.error]; (repeat' split) <;> rfl"),
 ("loopError","(s : PS) (m : Str)","(s.loopError m)",E,"rfl"),
 ("restore","(s : PS) (v : PS.Saved)","(s.restore v)","procs pos expand","rfl"),
 ("adv","(s : PS)","s.adv","pos","rfl"),
 ("expect","(s : PS) (c : Nat)","(s.expect c).2","pos "+E,"by\n  simp only [PS.expect]; (repeat' split) <;> simp"),
 ("skipws","(s : PS)","s.skipws","pos","rfl"),
 ("eol","(s : PS)","s.eol.2","pos","by\n  simp only [PS.eol]; (repeat' split) <;> simp"),
 ("getIdent","(s : PS)","s.getIdent.2","pos","by\n  simp only [PS.getIdent]; (repeat' split) <;> simp"),
 ("addText","(s : PS) (t : Str)","(s.addText t)","expand","by\n  unfold PS.addText; split <;> rfl"),
 ("addSInt","(s : PS) (x : Nat)","(s.addSInt x)","expand","rfl"),
 ("addSFp","(s : PS) (n : Str)","(s.addSFp n)","expand","rfl"),
 ("addSVar","(s : PS) (n : Str)","(s.addSVar n)","expand","rfl"),
 ("addSLit","(s : PS) (c : Nat)","(s.addSLit c)","expand","by\n  unfold PS.addSLit; split <;> rfl"),
 ("addSStr","(s : PS) (t : Str)","(s.addSStr t)","expand","rfl"),
 ("addTextStr","(s : PS) (t : Str)","(s.addTextStr t)","expand","rfl"),
 ("pushLoop","(s : PS) (t : LT)","(s.pushLoop t).2","labelNum jumps expand","by\n  simp only [PS.pushLoop]; split <;> rfl"),
 ("popLoopErr","(s : PS) (t : LT)","(s.popLoopErr t)",E,"rfl"),
 ("popLoop","(s : PS) (t : LT)","(s.popLoop t).2","jumps expand "+E,"by\n  unfold PS.popLoop; (repeat' split) <;> simp <;> split <;> rfl"),
 ("pushProc","(s : PS) (l : Str)","(s.pushProc l)","procStack procs","rfl"),
 ("emitBytes","(d : List DCode) (s : PS)","(emitBytes d s)","procs","by\n  induction d generalizing s with\n  | nil => rfl\n  | cons _ _ ih => simp [emitBytes, ih]"),
 ("matchLit","(l : Str) (s : PS)","(matchLit l s).2","pos "+E,"by\n  induction l generalizing s with\n  | nil => rfl\n  | cons _ _ ih => simp only [matchLit]; (repeat' split) <;> simp [ih]"),
 ("addSLits","(l : Str) (s : PS)","(addSLits l s)","expand","by\n  induction l generalizing s with\n  | nil => rfl\n  | cons _ _ ih => simp only [addSLits]; (repeat' split) <;> simp [ih]"),
 ("listLit","(l : Str) (s : PS)","(listLit l s)","expand","by\n  simp only [listLit]; (repeat' split) <;> simp"),
 ("getDigits","(v : Nat → Option Nat) (b : Nat) (s : PS)","(getDigits v b s).2","pos","rfl"),
 ("getHex","(s : PS)","(getHex s).2","pos","rfl"),
 ("getDec","(s : PS)","(getDec s).2","pos","rfl"),
 ("getNumber","(s : PS)","(getNumber s).2","pos expand "+E,"by\n  simp only [getNumber]; (repeat' split) <;> simp"),
 ("getAsmWord","(s : PS)","(getAsmWord s).2","pos expand procs "+E,"by\n  simp only [getAsmWord]; (repeat' split) <;> simp"),
 ("getAsmByte","(s : PS)","(getAsmByte s).2","pos expand procs "+E,"by\n  simp only [getAsmByte]; (repeat' split) <;> simp"),
 ("hexLoop","(n : Nat) (s : PS) (t : Str)","(hexLoop n s t).2","pos "+E,"by\n  induction n generalizing s t with\n  | zero => rfl\n  | succ _ ih => simp only [hexLoop]; (repeat' split) <;> simp [ih]"),
 ("constLoop","(n : Nat) (s : PS) (t : Str)","(constLoop n s t).2","pos "+E,"by\n  induction n generalizing s t with\n  | zero => rfl\n  | succ _ ih => simp only [constLoop]; (repeat' split) <;> simp [ih]"),
 ("getConstString","(s : PS)","(getConstString s).2","pos expand "+E,"by\n  simp only [getConstString]; (repeat' split) <;> simp"),
 ("popElifs","(n : Nat) (s : PS)","(popElifs n s)","jumps expand procs "+E,"by\n  induction n generalizing s with\n  | zero => rfl\n  | succ _ ih => simp only [popElifs]; (repeat' split) <;> simp [ih]"),
 ("emitVarn","(s : PS) (n : Str)","(emitVarn s n)","procs","rfl"),
 ("setLabel","(s : PS) (n : Str) (l : LabelT)","(setLabel s n l)","labels","rfl"),
 ("parseFpExp","(s : PS)","(parseFpExp s).2","pos expand procs "+E,"by\n  simp only [parseFpExp]; (repeat' split) <;> simp"),
 ("emitData","(l : List Nat) (s : PS)","(emitData l s)","procs","by\n  induction l generalizing s with\n  | nil => rfl\n  | cons _ _ ih => simp [emitData, ih]"),
]
print("""import Verif.Parse.Actions

/-!
# Fields that the operations of the parser do not change

Generated by `tools/gen_frame.py`. Lemmas only, no definitions.
-/

namespace FB.Parse.Frame

open FB.Parse
""")
for n,b,t,ch,p in ops:
    ch=ch.split()
    for f in FIELDS:
        if f in ch: continue
        arg = "s"
        print(f"@[simp] theorem {n}_{f} {b} : {t}.{f} = s.{f} := {p}")
# removeLast
for f in FIELDS:
    if f=="procs": continue
    print(f"theorem removeLast_{f} {{s s' : PS}} {{c : CW}} (h : s.removeLast = some (c, s')) : s'.{f} = s.{f} := by\n  unfold PS.removeLast at h; split at h <;> simp at h; rw [← h.2]; rfl")
print("\nend FB.Parse.Frame")
