#!/usr/bin/env python3
"""Translate the syntax files of FastBasic to a Lean definition of the parsing tables.

Reads the .syn files of a target in the order of its .tgt file, the same way as
src/compiler/synt-{preproc,parser,sm,wlist,symlist,pstate}.cc, and writes the tables before
`syntax_optimize`.  Usage: gen_grammar.py REPO TARGET LEAN_NAMESPACE > file.lean
The targets native-int and native-fp are the native compilers: the files are those of the Makefile
and the tables are sorted by name.
"""
import re, sys

repo, target, ns = sys.argv[1:4]

TOKS = """NUM BYTE CSTRING VAR_ADDR VAR_SADDR VAR_LOAD SHL8 PUSH PUSH_VAR_LOAD PUSH_NUM PUSH_BYTE PUSH_0
PUSH_1 NEG ADD SUB MUL DIV MOD ADD_VAR BIT_AND BIT_OR BIT_EXOR PEEK BYTE_PEEK L_NOT L_OR L_AND LT GT NEQ
EQ COMP_0 POKE DPOKE INC DEC VAR_STORE SADDR INCVAR DECVAR BYTE_POKE NUM_POKE VAR_STORE_0 PRINT_STR GET
GETKEY PUT BYTE_PUT JUMP CJUMP CNJUMP CALL RET CRET CNRET END USHL STR_IDX CHR IOCHN""".split()

def read_target(name):
    files = []
    if name.startswith('native-'):
        mk = open(f"{repo}/Makefile").read()
        for v in ['INT', 'FP'] if name == 'native-fp' else ['INT']:
            body = re.search(r'^SYNTAX_%s=\\\n((?:\t.*\\\n)*)' % v, mk, re.M).group(1)
            files += re.findall(r'src/syntax/(\S+\.syn)', body)
        return files
    for line in open(f"{repo}/compiler/{name}.tgt"):
        w = line.split()
        if not w or w[0].startswith('#'):
            continue
        if w[0] == 'include':
            files += read_target(w[1])
        elif w[0] == 'syntax':
            files += w[1:]
    return files

tokens, externs, symbols = set(), set(), {}
tables, order = {}, []          # name -> dict(desc, lines, complete)
IMPORT, IMPORTZP = 'import', 'importzp'

def preproc(text):
    # no definitions in the cross compiler: "#@if X" sections are dropped, "#@if !X" kept
    assert '#@' not in text, "preprocessor sections are not supported"
    return text

def cstr(s):
    out, i = [], 0
    while i < len(s):
        if s[i] == '\\':
            i += 1
            out.append({'n': 10, 'r': 13, 't': 9, '"': 34, '\\': 92}[s[i]])
        else:
            out.append(ord(s[i]))
        i += 1
    return out

def strip_comment(line):
    # '#' starts a comment outside of a string
    out, q, i = '', False, 0
    while i < len(line):
        c = line[i]
        if q and c == '\\':
            out += line[i:i+2]; i += 2; continue
        if c == '"':
            q = not q
        if c == '#' and not q:
            break
        out += c; i += 1
    return out

def number(t):
    if t.startswith('$'):
        return int(t[1:], 16)
    if t.lower().startswith('0x'):
        return int(t[2:], 16)
    if t.isdigit():
        return int(t)
    return None

def emit_tok(t):
    t = t.strip()
    word = t.startswith('&')
    if word:
        t = t[1:].strip()
    n = number(t)
    if n is not None:
        return ('wordVal' if word else 'byteVal', n)
    if word:
        v = symbols[t]
        return ('wordSym', t) if v in (IMPORT, IMPORTZP) else ('wordVal', v)
    if t.startswith('TOK_'):
        assert t in tokens, t
        return ('token', t[4:])
    v = symbols[t]
    if v == IMPORTZP:
        return ('byteSym', t)
    assert v != IMPORT and v <= 255, t
    return ('byteVal', v)

def parse_rule(line):
    """returns (list of pcodes, canFail, is_pass)"""
    pcs, can_fail = [], False
    rest = line.strip()
    while rest:
        m = re.match(r'"((?:[^"\\]|\\.)*)"\s*', rest)
        if m:
            pcs.append(('lit', cstr(m.group(1)))); can_fail = True
            rest = rest[m.end():]; continue
        m = re.match(r'emit\b\s*(\{([^}]*)\}|(&?\s*[$\w]+))\s*', rest)
        if m:
            body = m.group(2) if m.group(2) is not None else m.group(3)
            pcs.append(('emit', [emit_tok(x) for x in body.split(',')]))
            rest = rest[m.end():]; continue
        m = re.match(r'(\w+)\s*', rest)
        assert m, (line, rest)
        w = m.group(1); rest = rest[m.end():]
        if w == 'pass':
            assert not rest
            return pcs + [('ret',)], False, True
        can_fail = True
        pcs.append(('ext', w) if w in externs else ('call', w))
    return pcs + [('ret',)], can_fail, False

for fn in read_target(target):
    text = preproc(open(f"{repo}/src/syntax/{fn}").read())
    text = re.sub(r'\\\n', '  ', text)
    lines = [strip_comment(l) for l in text.split('\n')]
    i = 0
    while i < len(lines):
        l = lines[i]
        if not l.strip():
            i += 1; continue
        w = l.split()[0]
        if w in ('TOKENS', 'EXTERN', 'SYMBOLS'):
            blk = l
            while '}' not in blk:
                i += 1; blk += '\n' + lines[i]
            i += 1
            body = blk[blk.index('{')+1:blk.index('}')]
            if w == 'SYMBOLS':
                for it in re.split(r'[,\n]', body):
                    if it.strip():
                        k, v = [x.strip() for x in it.split('=')]
                        assert k not in symbols
                        symbols[k] = v if v in (IMPORT, IMPORTZP) else number(v)
            else:
                (tokens if w == 'TOKENS' else externs).update(re.findall(r'\w+', body))
            continue
        m = re.match(r'(\w+):(.*)$', l)
        assert m, (fn, l)
        name, desc = m.group(1), m.group(2)
        i += 1
        rules = []
        while i < len(lines) and (not lines[i].strip() or lines[i][0] in ' \t'):
            if lines[i].strip():
                rules.append(lines[i])
            i += 1
        if name not in tables:
            order.append(name)
            # desc: skips blanks, up to the end of line
            t = tables[name] = dict(desc=[ord(c) for c in desc.strip()], lines=[], complete=False)
            for r in rules:
                assert not t['complete'], name
                pcs, cf, ps = parse_rule(r)
                t['lines'].append(pcs)
                t['complete'] = not cf
        else:
            t = tables[name]
            prepend = desc.startswith('<')
            assert desc.strip() in ('', '<'), desc
            do_complete, last = t['complete'], None
            if do_complete:
                t['complete'] = False
                if t['lines']:
                    last = t['lines'].pop()
            for r in rules:
                assert not t['complete'], name
                pcs, cf, ps = parse_rule(r)
                if prepend:
                    t['lines'].insert(0, pcs)
                else:
                    t['lines'].append(pcs)
                t['complete'] = not cf
            if do_complete:
                assert not t['complete'], name
                t['complete'] = True
                t['lines'].append(last)

ids = {n: k for k, n in enumerate(order)}
def codes(l): return '[' + ', '.join(map(str, l)) + ']'
def lst(s): return codes([ord(c) for c in s])
def tok(t):
    if t == '0': return '.ZERO'
    if t == '1': return '.ONE'
    return '.' + t if t in TOKS else f'(.other "{t}")'
syms_used = {}
def sym(s):
    syms_used.setdefault(s, f'y_{s}')
    return syms_used[s]
def dc(d):
    k, v = d
    if k == 'token': return f'.token {tok(v)}'
    if k in ('byteSym', 'wordSym'): return f'.{k} {sym(v)}'
    return f'.{k} {v}'
def pc(p):
    if p[0] == 'lit':
        return f'.lit {codes(p[1])}'
    if p[0] == 'emit':
        return '.emit [' + ', '.join(dc(d) for d in p[1]) + ']'
    if p[0] == 'call':
        return f'.call {ids[p[1]]}'
    if p[0] == 'ext':
        return f'.ext .{p[1][2:]}'
    return '.ret'
def show(p):
    if p[0] == 'lit': return '"' + ''.join(map(chr, p[1])) + '"'
    if p[0] == 'emit': return 'emit'
    return p[1] if len(p) > 1 else 'return'

if target.startswith('native-'):
    order = sorted(order)
    ids = {n: k for k, n in enumerate(order)}
    body = []
    for n in order:
        t = tables[n]
        body.append(f'/-- Table `{n}`. -/')
        body.append(f'def t{ids[n]} : SM := ⟨{ids[n]}, [')
        body.append(',\n'.join('  [' + ', '.join(pc(p) for p in l) + ']' for l in t['lines']))
        body.append(f'  ], {"true" if t["complete"] else "false"}⟩\n')
    print(f'''import Verif.Syn.Tables

/-!
# Parsing tables of the native compiler, `{target}`

Generated by `tools/gen_grammar.py` from the files of `SYNTAX_{target[7:].upper()}` in `/repo/Makefile:611-625`: {" ".join(read_target(target))}.
These are the tables as read, before `syntax_optimize`, in the order of the map `sms` (by name) and numbered in this order. Do not edit.
-/

namespace FB.Syn.{ns}
open FB.Parse (Str Act)
''')
    for s, y in sorted(syms_used.items()):
        print(f'/-- Symbol `{s}`. -/\ndef {y} : Str := {lst(s)}')
    print()
    print('\n'.join(body))
    print(f'''/-- The tables, `/repo/src/syntax`. -/
def tables : SMs := [
  {", ".join("t%d" % ids[n] for n in order)}]

/-- The routines, in the order of the map `ext`: `EXTERN` in `/repo/src/syntax`. -/
def exts : List Act := [
  {", ".join("." + e[2:] for e in sorted(externs))}]

/-- The number of table `PARSE_START`. -/
abbrev n_PARSE_START : Nat := {ids["PARSE_START"]}

end FB.Syn.{ns}''')
    sys.exit()

body = []
for n in order:
    t = tables[n]
    body.append(f'/-- Table `{n}`. -/')
    body.append(f'def t{ids[n]} : Table := {{ desc := {codes(t["desc"])}, lines := [')
    body.append(',\n'.join('  [' + ', '.join(pc(p) for p in l) + ']' for l in t['lines']))
    body.append('  ] }\n')

print(f'''import Verif.Parse.Engine

/-!
# Parsing tables of target `{target}`

Generated by `tools/gen_grammar.py` from `/repo/src/syntax/*.syn` with the list of files of
`/repo/compiler/{target}.tgt`: {" ".join(read_target(target))}.
These are the tables as read, before `syntax_optimize`.
Tables are numbered in order of first definition. Do not edit.
-/

namespace FB.Parse.{ns}
''')
for s, y in sorted(syms_used.items()):
    print(f'/-- Symbol `{s}`. -/\ndef {y} : Str := {lst(s)}')
print()
print('\n'.join(body))
print(f'''/-- The tables, by number, `/repo/compiler/{target}.tgt`. -/
def tables : List Table := [
  {", ".join("t%d" % ids[n] for n in order)}]

/-- The grammar: table by number. -/
def grammar : Grammar := fun n => tables[n]?
''')
for n in ('PARSE_START', 'STATEMENT', 'EXPR', 'LINE_ASSIGNMENT', 'THEN_OR_MULTILINE', 'IO_CHAN0'):
    print(f'/-- The number of table `{n}`. -/\nabbrev n_{n} : Nat := {ids[n]}')
print(f'\nend FB.Parse.{ns}')
