#!/usr/bin/env python3
"""Transcribe the unit tests of /repo (assert_eq!/assert! on the public API) into Lean examples.

Usage: gen_conformance.py            write lean/Verif/Conformance*.lean
       gen_conformance.py --eval F   write one file of #eval commands to F
Tests that use constructs outside the little language below are skipped and listed in
tools/conformance_skipped.txt."""
import re, sys, os, glob
REPO = '/repo/src'

# ---------------------------------------------------------------- tokens
TOK = re.compile(r'''
  (?P<ws>\s+|//[^\n]*|/\*.*?\*/)
 |(?P<raw>r(?P<h>\#*)".*?"(?P=h))
 |(?P<str>"(?:[^"\\]|\\.)*")
 |(?P<chr>'(?:[^'\\]|\\.|\\u\{[0-9a-fA-F]+\})')
 |(?P<life>'[a-z_]+)
 |(?P<num>[0-9][0-9_]*(?:u8|u64|usize)?)
 |(?P<id>[A-Za-z_][A-Za-z0-9_]*!?(?!=)|[A-Za-z_][A-Za-z0-9_]*)
 |(?P<op>::|\.\.=|\.\.|=>|->|==|!=|<=|>=|&&|\|\||[-+*/%&|!<>=(){}\[\],;:.?#@^])
''', re.X | re.S)

class Bad(Exception): pass

def lex(s):
    out, i = [], 0
    while i < len(s):
        m = TOK.match(s, i)
        if not m: raise Bad('lex ' + s[i:i+20])
        i = m.end()
        k = m.lastgroup if m.lastgroup != 'h' else 'raw'
        if m.group('ws') is not None: continue
        if m.group('raw') is not None:
            t = m.group('raw'); h = len(m.group('h')); out.append(('str', t[2+h:len(t)-1-h])); continue
        if m.group('str') is not None: out.append(('str', unesc(m.group('str')[1:-1]))); continue
        if m.group('chr') is not None: out.append(('chr', unesc(m.group('chr')[1:-1]))); continue
        if m.group('num') is not None: out.append(('num', int(re.sub(r'(u8|u64|usize)$', '', m.group('num')).replace('_', '')))); continue
        if m.group('id') is not None: out.append(('id', m.group('id'))); continue
        if m.group('life') is not None: out.append(('life', m.group('life'))); continue
        out.append(('op', m.group('op')))
    return out

def unesc(s):
    def f(m):
        t = m.group(0)
        if t[1] == 'u': return chr(int(t[3:-1], 16))
        if t[1] == 'x': return chr(int(t[2:], 16))
        if t[1] == '\n': return ''
        return {'n': '\n', 't': '\t', 'r': '\r', '0': '\0', '\\': '\\', '"': '"', "'": "'"}[t[1]]
    return re.sub(r'\\(?:u\{[0-9a-fA-F]+\}|x[0-9a-fA-F]{2}|\n\s*|.)', f, s, flags=re.S)

# ---------------------------------------------------------------- expressions
class P:
    def __init__(s, toks): s.t, s.i = toks, 0
    def peek(s, k=0): return s.t[s.i+k] if s.i+k < len(s.t) else ('eof', None)
    def next(s): x = s.peek(); s.i += 1; return x
    def isop(s, o, k=0): return s.peek(k) == ('op', o)
    def eat(s, o):
        if not s.isop(o): raise Bad(f'expected {o} got {s.peek()}')
        s.i += 1
    def args(s, close):
        out = []
        while not s.isop(close):
            out.append(s.expr())
            if s.isop(','): s.i += 1
        s.eat(close)
        return out
    def expr(s):
        l = s.cmp()
        while s.isop('&&') or s.isop('||'):
            o = s.next()[1]; r = s.cmp(); l = ('bin', o, l, r)
        return l
    def cmp(s):
        l = s.unary()
        while s.peek()[0] == 'op' and s.peek()[1] in ('==', '!=', '<', '>', '<=', '>=', '+'):
            o = s.next()[1]; r = s.unary(); l = ('bin', o, l, r)
        return l
    def unary(s):
        if s.isop('&'):
            s.i += 1
            if s.peek() == ('id', 'mut'): raise Bad('mut ref')
            return s.unary()
        if s.isop('*'): s.i += 1; return s.unary()
        if s.isop('!'): s.i += 1; return ('not', s.unary())
        return s.post(s.atom())
    def post(s, e):
        while True:
            if s.isop('.'):
                s.i += 1
                k, n = s.next()
                if s.isop('::'):
                    raise Bad('turbofish')
                if s.isop('('):
                    s.i += 1; e = ('meth', e, n, s.args(')'))
                else: e = ('field', e, n)
            elif s.isop('['):
                s.i += 1; j = s.expr(); s.eat(']'); e = ('index', e, j)
            elif s.isop('?'): raise Bad('?')
            else: return e
    def atom(s):
        k, v = s.next()
        if k == 'str': return ('str', v)
        if k == 'chr': return ('chr', v)
        if k == 'num': return ('num', v)
        if k == 'op' and v == '(':
            a = s.args(')')
            return a[0] if len(a) == 1 else ('tuple', a)
        if k == 'op' and v == '[': return ('vec', s.args(']'))
        if k == 'op' and v == '|': raise Bad('closure')
        if k == 'id':
            if v in ('true', 'false'): return ('bool', v)
            if v == 'vec!':
                s.i += 1
                return ('vec', s.args(']'))
            if v == 'matches!':
                s.eat('('); e = s.expr(); s.eat(','); p = s.pat(); s.eat(')')
                return ('matches', e, p)
            if v.endswith('!'): raise Bad('macro ' + v)
            if v in ('if', 'match', 'for', 'while', 'move', 'unsafe', 'loop', 'return'): raise Bad(v)
            path = [v]
            while s.isop('::'):
                s.i += 1
                path.append(s.next()[1])
            name = path[-1]
            if s.isop('('):
                s.i += 1; return ('call', path, s.args(')'))
            if s.isop('{') and name[0].isupper():
                s.i += 1; fs = {}
                while not s.isop('}'):
                    f = s.next()[1]
                    if s.isop(':'): s.i += 1; fs[f] = s.expr()
                    else: fs[f] = ('path', [f])
                    if s.isop(','): s.i += 1
                s.eat('}')
                return ('struct', path, fs)
            return ('path', path)
        raise Bad(f'atom {k} {v}')
    def pat(s):
        depth, toks = 0, []
        while not (depth == 0 and s.isop(')')):
            k, v = s.next()
            if v in ('(', '{', '['): depth += 1
            if v in (')', '}', ']'): depth -= 1
            toks.append(str(v))
        return ''.join(toks)

# ---------------------------------------------------------------- Lean
def lstr(s):
    """A Rust string as a Lean list of characters."""
    if all(c in '\n\t' or 32 <= ord(c) for c in s) and '\r' not in s:
        t = s.replace('\\', '\\\\').replace('"', '\\"').replace('\n', '\\n').replace('\t', '\\t')
        return f'cs!"{t}"'
    return '[' + ', '.join(f'Char.ofNat {ord(c)}' for c in s) + ']'

low = lambda n: n[0].lower() + n[1:]
FIELDS = {'Link': ['destination', 'title', 'children'], 'Image': ['destination', 'title', 'alt'],
  'LinkReference': ['label', 'text'], 'Heading': ['kind', 'content'], 'List': ['kind', 'items'],
  'CodeBlock': ['kind', 'literal'], 'LinkDefinition': ['label', 'destination', 'title'],
  'Table': ['rows', 'alignments'], 'FootnoteDefinition': ['label', 'blocks'],
  'GitHubAlert': ['alert_type', 'blocks'], 'ListItem': ['task', 'blocks'],
  'ListOrderedKindOptions': ['start']}
BLOCK = {'Paragraph': 'paragraph', 'Heading': 'heading', 'ThematicBreak': 'thematicBreak', 'BlockQuote': 'blockQuote',
  'List': 'list', 'CodeBlock': 'codeBlock', 'HtmlBlock': 'htmlBlock', 'Definition': 'definition', 'Table': 'table',
  'FootnoteDefinition': 'footnoteDefinition', 'GitHubAlert': 'githubAlert', 'Empty': 'empty'}
INL = {'Text': 'text', 'LineBreak': 'lineBreak', 'Code': 'code', 'Html': 'html', 'Link': 'link',
  'LinkReference': 'linkReference', 'Image': 'image', 'Emphasis': 'emphasis', 'Strong': 'strong',
  'Strikethrough': 'strikethrough', 'Autolink': 'autolink', 'FootnoteReference': 'footnoteReference', 'Empty': 'empty'}

class Tr:
    """Translate expressions to (Lean term, type)."""
    def __init__(s, env, mod): s.env, s.mod = env, mod
    def term(s, e, want=None):
        t, ty = s.go(e)
        if want and ty != want: raise Bad(f'type {ty} for {want}')
        return t
    def go(s, e):
        k = e[0]
        if k == 'str': return lstr(e[1]), 'Str'
        if k == 'num': return str(e[1]), 'Nat'
        if k == 'bool': return e[1], 'Bool'
        if k == 'chr': return lstr(e[1]), 'Chr'
        if k == 'vec':
            xs = [s.go(x) for x in e[1]]
            ty = xs[0][1] if xs else '?'
            return '[' + ', '.join(x[0] for x in xs) + ']', f'List {ty}'
        if k == 'not': return f'(!{s.term(e[1], "Bool")})', 'Bool'
        if k == 'bin':
            a, b = s.go(e[2]), s.go(e[3])
            if e[1] in ('==', '!='): return f'(decide ({a[0]} {"=" if e[1] == "==" else "≠"} {b[0]}))', 'Bool'
            if e[1] in ('<', '>', '<=', '>=') and a[1] == b[1] == 'Nat':
                o = {'<=': '≤', '>=': '≥'}.get(e[1], e[1])
                return f'(decide ({a[0]} {o} {b[0]}))', 'Bool'
            if e[1] in ('&&', '||'): return f'({a[0]} {e[1]} {b[0]})', 'Bool'
            raise Bad('bin ' + e[1])
        if k == 'path': return s.path(e[1])
        if k == 'call': return s.call(e[1], e[2])
        if k == 'struct': return s.struct(e[1], e[2])
        if k == 'meth': return s.meth(e[1], e[2], e[3])
        if k == 'field':
            t, ty = s.go(e[1])
            if ty == 'Document' and e[2] == 'blocks': return f'{t}.blocks', 'List Block'
            if ty == 'Pair' and str(e[2]) == '0': return f'{t}.1', 'Str'
            if ty == 'Pair' and str(e[2]) == '1': return f'{t}.2', 'Inline'
            raise Bad(f'field {e[2]}')
        if k == 'index':
            t, ty = s.go(e[1]); n = s.term(e[2], 'Nat')
            if ty == 'List Block': return f'({t}.getD {n} .empty)', 'Block'
            raise Bad('index')
        if k == 'matches':
            t, ty = s.go(e[1])
            m = re.match(r'^Block::(\w+)(?:\(_\)|\{\.\.\})?$', e[2])
            if ty == 'Block' and m: return f'(isKind {lstr(m.group(1))} {t})', 'Bool'
            raise Bad('matches ' + e[2])
        raise Bad(k)
    def path(s, p):
        if len(p) == 1:
            if p[0] in s.env: return s.env[p[0]]
            if p[0] == 'None': return 'none', 'Option'
            raise Bad('name ' + p[0])
        a, b = p[-2], p[-1]
        if a == 'Block': return '.' + BLOCK[b], 'Block'
        if a == 'Inline': return '.' + INL[b], 'Inline'
        if a in ('SetextHeading', 'ListBulletKind', 'TaskState', 'Alignment', 'GitHubAlertType', 'CodeBlockKind'):
            return '.' + low(b), a
        if a in ('TableStyle', 'CodeBlockStyle'): return '.' + low(b), a
        raise Bad('path ' + '::'.join(p))
    def call(s, p, args):
        n = p[-1]
        if n == 'parse_markdown' and len(args) == 2:
            if not (args[0][0] == 'call' and args[0][1][-2:] == ['MarkdownParserState', 'default']): raise Bad('state')
            return f'(parsed {s.term(args[1], "Str")})', 'RDocument'
        if n == 'environment_variable':
            return f'(environmentVariable {s.term(args[0], "Str")})', 'RPair'
        if n == 'render_latex':
            return f'(Latex.renderLatex List.length {s.term(args[1], "LConfig")} {s.term(args[0], "Document")})', 'Str'
        if n == 'render_markdown':
            return f'(printed {s.term(args[1], "MConfig")} {s.term(args[0], "Document")})', 'Str'
        if n == 'render_html':
            return f'(html {s.term(args[1], "HConfig")} {s.term(args[0], "Document")})', 'Str'
        if n == 'Some': t, ty = s.go(args[0]); return f'(some {t})', 'Option'
        if n == 'new' and p[-2] == 'Box': return s.go(args[0])
        if n == 'new' and p[-2] == 'String': return '[]', 'Str'
        if n == 'from' and p[-2] == 'String': return s.go(args[0])
        if n == 'default' and p[-2] in ('Config', 'PrinterConfig'):
            k = {'printer': 'MConfig', 'latex_printer': 'LConfig', 'html_printer': 'HConfig'}[s.which(p)]
            return {'M': 'Md', 'L': 'Latex', 'H': 'Html'}[k[0]] + '.Config.default', k
        a = p[-2] if len(p) > 1 else None
        if a == 'Block':
            if n in ('Paragraph', 'BlockQuote', 'HtmlBlock'): return f'(.{BLOCK[n]} {s.go(args[0])[0]})', 'Block'
            x = args[0]
            if x[0] == 'struct': return f'(.{BLOCK[n]} {s.fields(x)})', 'Block'
        if a == 'Inline':
            x = args[0]
            if x[0] == 'struct': return f'(.{INL[n]} {s.fields(x)})', 'Inline'
            return f'(.{INL[n]} {s.go(x)[0]})', 'Inline'
        if a == 'HeadingKind' or a == 'ListKind':
            x = args[0]
            if x[0] == 'struct': return f'(.{low(n)} {s.fields(x)})', a
            return f'(.{low(n)} {s.go(x)[0]})', a
        if a == 'GitHubAlertType' and n == 'Custom': return f'(.custom {s.go(args[0])[0]})', a
        raise Bad('call ' + '::'.join(p))
    def which(s, p):
        for q in p:
            if q in ('printer', 'latex_printer', 'html_printer'): return q
        if p[-2] == 'PrinterConfig': return 'printer'
        return s.mod
    def fields(s, x):
        return ' '.join(s.go(x[2][f])[0] for f in FIELDS[x[1][-1]])
    def struct(s, p, fs):
        n = p[-1]
        if n == 'Document': return f'(⟨{s.go(fs["blocks"])[0]}⟩ : Document)', 'Document'
        if n == 'ListItem': return f'(.mk {s.go(fs["task"])[0]} {s.go(fs["blocks"])[0]})', 'ListItem'
        if n == 'Fenced': return f'(.fenced {s.go(fs["info"])[0]})', 'CodeBlockKind'
        raise Bad('struct ' + n)
    def meth(s, e, n, args):
        t, ty = s.go(e)
        if n in ('to_string', 'to_owned', 'into', 'as_str', 'clone'): return t, ty
        if n == 'unwrap' and ty == 'RDocument': return f'({t}.getD ⟨[]⟩)', 'Document'
        if n == 'unwrap' and ty == 'RPair': return f'({t}.getD ([], .empty))', 'Pair'
        if n == 'is_err' and ty == 'RPair': return f'{t}.isNone', 'Bool'
        if n == 'is_ok' and ty == 'RDocument': return f'{t}.isSome', 'Bool'
        if ty == 'Str':
            if n == 'trim': return f'(trim {t})', 'Str'
            if n == 'contains': return f'(cs!"".length == 0 && containsStr {s.arg(args[0])} {t})'.replace('cs!"".length == 0 && ', ''), 'Bool'
            if n == 'starts_with': return f'(List.isPrefixOf {s.arg(args[0])} {t})', 'Bool'
            if n == 'ends_with': return f'(List.isSuffixOf {s.arg(args[0])} {t})', 'Bool'
            if n == 'is_empty': return f'({t}.isEmpty)', 'Bool'
            if n == 'len': return f'({t}.utf8)', 'Nat8'
            if n == 'matches': return f'(occurrences {s.arg(args[0])} {t})', 'Count'
        if ty == 'Count' and n == 'count': return t, 'Nat'
        if ty.startswith('List') and n == 'len': return f'({t}.length)', 'Nat'
        if ty.startswith('List') and n == 'is_empty': return f'({t}.isEmpty)', 'Bool'
        if ty == 'LConfig':
            f = {'with_width': 'width', 'with_table_style': 'tableStyle', 'with_code_block_style': 'codeBlockStyle'}[n]
            return f'({{ {t} with {f} := {s.go(args[0])[0]} }} : Latex.Config)', ty
        if ty == 'MConfig':
            f = {'with_width': 'width', 'with_spaces_before_list_item': 'spacesBeforeListItem', 'with_empty_line_before_list': 'emptyLineBeforeList'}[n]
            return f'({{ {t} with {f} := {s.go(args[0])[0]} }} : Md.Config)', ty
        raise Bad(f'method {ty}.{n}')
    def arg(s, a):
        t, ty = s.go(a)
        if ty not in ('Str', 'Chr'): raise Bad('arg ' + ty)
        return t

# ---------------------------------------------------------------- tests
def matching(src, i, o, c):
    """index after the bracket that closes the one at i (strings and comments skipped)"""
    d = 0
    while i < len(src):
        m = TOK.match(src, i)
        if not m: raise Bad('lex')
        if m.group('op') == o: d += 1
        if m.group('op') == c:
            d -= 1
            if d == 0: return m.end()
        i = m.end()
    raise Bad('unbalanced')

def statements(p):
    while p.peek()[0] != 'eof':
        k, v = p.peek()
        if (k, v) == ('op', ';'): p.i += 1; continue
        if k == 'id' and v in ('println!', 'dbg!'):
            d = 0
            while True:
                x = p.next()
                if x == ('op', '('): d += 1
                if x == ('op', ')'):
                    d -= 1
                    if d == 0: break
            continue
        if (k, v) == ('id', 'use'):
            while p.next() != ('op', ';'): pass
            continue
        if (k, v) == ('id', 'let'):
            p.i += 1
            if p.peek() == ('id', 'mut'): raise Bad('mut')
            n = p.next()[1]
            if p.isop(':'): raise Bad('typed let')
            p.eat('=')
            e = p.expr(); p.eat(';')
            yield ('let', n, e)
            continue
        if k == 'id' and v in ('assert_eq!', 'assert_ne!', 'assert!'):
            p.i += 1; p.eat('(')
            e = [p.expr()]; p.isop(',') and p.next()
            if v != 'assert!': e.append(p.expr()); p.isop(',') and p.next()
            d = 1
            while d:
                x = p.next()
                if x == ('op', '('): d += 1
                if x == ('op', ')'): d -= 1
            yield (v[:-1], e)
            continue
        if (k, v) == ('id', 'assert_no_consecutive_text_in_document'):
            p.i += 1; p.eat('('); e = p.expr(); p.eat(')')
            yield ('merged', e)
            continue
        raise Bad(f'statement {k} {v}')

def claims(body, env, mod):
    tr = Tr(dict(env), mod)
    out = []
    for st in statements(P(lex(body))):
        if st[0] == 'let':
            tr.env[st[1]] = tr.go(st[2])
        elif st[0] == 'assert_eq':
            a, b = tr.go(st[1][0]), tr.go(st[1][1])
            if a[1] != b[1] and not (a[1].startswith('List') and b[1].startswith('List')): raise Bad(f'eq {a[1]} {b[1]}')
            out.append(f'{a[0]} = {b[0]}')
        elif st[0] == 'assert_ne':
            a, b = tr.go(st[1][0]), tr.go(st[1][1]); out.append(f'{a[0]} ≠ {b[0]}')
        elif st[0] == 'merged':
            out.append(f'(mergedBlocks {tr.term(st[1], "Document")}.blocks) = true')
        else:
            out.append(f'{tr.term(st[1][0], "Bool")} = true')
    return out

def functions(path):
    """(name, line, attribute text, parameters, body) of the test functions of a file"""
    src = open(path).read()
    i = 0
    for m in re.finditer(r'#\[(test|rstest)\b', src):
        if m.start() < i: continue
        j = m.start(); attrs = ''
        while src[j] == '#':
            e = matching(src, src.index('[', j), '[', ']')
            attrs += src[j:e] + '\n'
            while True:
                w = re.match(r'\s+|//[^\n]*', src[e:])
                if not w: break
                e += w.end()
            j = e
        f = re.match(r'(?:pub )?fn (\w+)\s*', src[j:])
        if not f: continue
        a = j + f.end(); b = matching(src, a, '(', ')')
        params = src[a+1:b-1]
        o = src.index('{', b); e = matching(src, o, '{', '}')
        yield f.group(1), src[:j].count('\n') + 1, src[:e].count('\n') + 1, attrs, params, src[o+1:e-1]
        i = e

def cases(attrs, params):
    """the values of the parameters"""
    if not params.strip(): return [({}, '')]
    names = re.findall(r'(\w+)\s*:', params)
    out = []
    toks = lex(attrs)
    p = P(toks)
    k = 0
    while p.peek()[0] != 'eof':
        if p.peek() == ('id', 'case') and p.isop('(', 1):
            p.i += 2
            a = p.args(')')
            if len(a) != len(names): raise Bad('case')
            k += 1
            out.append(({n: (lstr(x[1]), 'Str') if x[0] == 'str' else None for n, x in zip(names, a)}, f' case {k}'))
        else: p.i += 1
    return out

FILES = [('ConformanceParser', 'parser/inline/tests/*.rs', 'parser'), ('ConformanceParser', 'parser/blocks/tests/*.rs', 'parser'),
  ('ConformancePrinter', 'printer/tests/*.rs', 'printer'), ('ConformancePrinter', 'html_printer/tests/*.rs', 'html_printer'),
  ('ConformanceLatex', 'latex_printer/tests/*.rs', 'latex_printer')]

def collect():
    res, skipped = {}, []
    for mod, pat, kind in FILES:
        for path in sorted(glob.glob(f'{REPO}/{pat}')):
            rel = 'src/' + os.path.relpath(path, REPO)
            for name, lo, hi, attrs, params, body in functions(path):
                try: cs = cases(attrs, params)
                except Bad as e: skipped.append((rel, name, str(e))); continue
                for env, tag in cs:
                    try: cl = claims(body, env, kind)
                    except (Bad, KeyError) as e: skipped.append((rel, name + tag, repr(e))); continue
                    if cl: res.setdefault(mod, []).append((rel, name + tag, lo, hi, cl))
    return res, skipped

if __name__ == '__main__':
    res, skipped = collect()
    n = sum(len(v) for v in res.values())
    print(n, 'transcribed', sum(len(c[4]) for v in res.values() for c in v), 'claims', len(skipped), 'skipped')
    if len(sys.argv) > 2 and sys.argv[1] == '--eval':
        with open(sys.argv[2], 'w') as f:
            f.write('import Verif.ConformanceBase\nopen Verif Nom Conformance\n')
            for v in res.values():
                for rel, name, lo, hi, cl in v:
                    for j, c in enumerate(cl):
                        tag = f'{rel}:{lo} {name} #{j}'
                        f.write(f'#eval if ({c}) then () else dbg_trace {chr(34)}FAIL {tag}{chr(34)} fun _ => ()\n' if False else
                                f'#eval (if ({c}) then "ok" else "FAIL {tag}")\n')
    else:
        for mod, v in res.items():
            with open(f'/verif/lean/Verif/{mod}.lean', 'w') as f:
                f.write('import Verif.ConformanceBase\n/-!\n# Unit tests of the repository, transcribed (generated by `tools/gen_conformance.py`)\n-/\n'
                        'namespace Verif\nnamespace Conformance\nopen Nom\n')
                for rel, name, lo, hi, cl in v:
                    f.write(f'\n/-- `{name}`, `{rel}:{lo}-{hi}` -/\nexample :\n    ' + ' ∧\n    '.join(f'({c})' if len(cl) > 1 else c for c in cl) + ' := by\n  decide +kernel\n')
                f.write('\nend Conformance\nend Verif\n')
        with open('/verif/tools/conformance_skipped.txt', 'w') as f:
            for s in skipped: f.write(' '.join(s) + '\n')
    for s in skipped: print('SKIP', *s)
