#!/usr/bin/env python3
"""Read the items of /repo/src (functions, types, constants, methods), their `cfg` attributes and the items that
each of them names, and print the table of lean/Verif/Model/Items.lean.

    python3 tools/items.py           print the table
    python3 tools/items.py --check   compare it with the table in the Lean file

This is a text scan: comments, strings and `use` lines are removed, and an item counts as named if its identifier occurs
in the text of another item.  Names that occur in several places (the hash functions, `verify`, ...) are resolved by the
rules below.
"""
import re, sys
SRC = '/repo/src/'
LEAN = '/verif/lean/Verif/Model/Items.lean'
HASHMODS = ['shake', 'sha2_cat_1', 'sha2_cat_3_5']


def read(f):
    return open(SRC + f).read()


def blank(s):
    """Comments, string and attribute texts by spaces, so that positions stay the same; `cfg` attributes are kept."""
    s = re.sub(r'//[^\n]*', lambda m: ' ' * len(m.group()), s)
    keep = {}
    for m in re.finditer(r'#!?\[(?:[^\[\]]|\[[^\]]*\])*\]', s):
        if not m.group().startswith('#[cfg'):
            s = s[:m.start()] + re.sub(r'[^\n]', ' ', m.group()) + s[m.end():]
    out = []
    for m in re.finditer(r'#\[cfg.*?\)\]', s, re.S):
        out.append((m.start(), m.end(), m.group()))
    t = s
    for a, b, g in out:
        t = t[:a] + re.sub(r'[^\n]', ' ', g) + t[b:]
    t = re.sub(r'"[^"\n]*"', lambda m: ' ' * len(m.group()), t)
    return t, out


def close(s, i):
    """The end of the item that begins at `i`: the matching brace, or the semicolon before any brace."""
    d = 0
    r = 0
    while True:
        c = s[i]
        if c in '([':
            r += 1
        if c in ')]':
            r -= 1
        if c == '{':
            d += 1
        if c == '}':
            d -= 1
            if d == 0 and r == 0:
                return i + 1
        if c == ';' and d == 0 and r == 0:
            return i + 1
        i += 1


def cfg_of(pos, cfgs, t):
    """The attribute that stands directly before the item."""
    for a, b, g in cfgs:
        if b <= pos and t[b:pos].strip() in ('', 'pub', 'pub(crate)'):
            if 'test' in g and 'feature' not in g:
                return ['test']
            return sorted(re.findall(r'feature = "([^"]*)"', g))
    return []


items = {}   # name -> (cfg list, text, file, line, scope)


def add(name, cfg, text, f, line, scope):
    assert name not in items, name
    items[name] = (cfg, text, f, line, scope)


def line_of(s, i):
    return s.count('\n', 0, i) + 1


def scan(f, t, cfgs, a, b, scope, outer):
    """The items between `a` and `b`."""
    i = a
    rx = re.compile(r'\b(fn|struct|enum|const|static|trait|mod|impl|macro_rules!|use|type)\b')
    while True:
        m = rx.search(t, i, b)
        if not m:
            return
        k = m.group(1)
        e = close(t, m.start())
        c = sorted(set(cfg_of(m.start(), cfgs, t) + outer))
        body = t[m.start():e]
        name = (re.match(r'[\w!]+\s+(\w+)', body) or [None, ''])[1]
        ln = line_of(t, m.start())
        if k == 'mod':
            if 'test' not in c and body.rstrip()[-1] == '}':
                inner = t.index('{', m.start()) + 1
                if name in HASHMODS:
                    scan(f, t, cfgs, inner, e - 1, name, c)
                else:
                    add('module ' + name, c, body, f, ln, name)
        elif k == 'macro_rules!':
            inner = t.index('=>', m.start())
            inner = t.index('{', inner) + 1
            scan(f, t, cfgs, inner, e - 2, 'api', [])
        elif k == 'impl':
            head = body[:body.index('{')]
            h = re.sub(r'<[^{]*?>', '', head.replace('\n', ' ')) if '<' in head else head
            w = h.split()
            inner = t.index('{', m.start()) + 1
            target = w[-1]
            tr = w[w.index('for') - 1] if 'for' in w else None
            if target == 'DummyRng':
                items['DummyRng'] = items['DummyRng'][:1] + (items['DummyRng'][1] + body,) + items['DummyRng'][2:]
            else:
                scan(f, t, cfgs, inner, e - 1, (scope + ' ' if scope else '') + (tr + ' for ' if tr else '') + target, outer)
        elif k == 'trait':
            inner = t.index('{', m.start()) + 1
            add(name, c, re.sub(r'\bfn\b.*', '', '') + name, f, ln, 'trait')
            scan(f, t, cfgs, inner, e - 1, name, c)
        elif k in ('use', 'type'):
            pass
        else:
            add((scope + ' ' if scope else '') + name, c, body, f, ln, scope)
        i = e


for f in ['types.rs', 'helpers.rs', 'hashers.rs', 'wots.rs', 'xmss.rs', 'hypertree.rs', 'fors.rs', 'slh.rs', 'traits.rs',
          'lib.rs']:
    t, cfgs = blank(read(f))
    scan(f, t, cfgs, 0, len(t), '', [])


API = [k for k, v in items.items() if v[2] == 'lib.rs' and not k.startswith('module ') and k not in ('LGW', 'W', 'LEN2')]
MODULES = [k for k in items if k.startswith('module ')]
SHARED = [k for k in items if k not in API and k not in MODULES]
FEATURE = {'default-rng': '.defaultRng'}


def lean(k):
    return k.replace(' ', '_').lstrip('_')


def feat(f):
    return FEATURE.get(f) or '.set .' + f


def words(k):
    f = items[k][2]
    text = items[k][1]
    text = text[re.match(r'\w+\s+\w+', text).end():] if re.match(r'\w+\s+\w+', text) else text
    return text


def uses_shared(k):
    """The shared items that the item `k` names."""
    text = words(k)
    scope = items[k][4].split()
    r = []
    for j in SHARED:
        p = j.split()
        n = p[-1]
        if len(p) == 1:
            # a type, a constant or a function of the crate
            if n in ('W', 'LGW', 'LEN2'):
                hit = re.search(r'crate::%s\b' % n, text)
            elif n in ('KeyGen', 'Signer', 'Verifier', 'SerDes'):
                hit = (n in k.split()[:1] and len(k.split()) > 1)
            else:
                hit = re.search(r'(?<![.\w])%s\b' % n, text)
        elif p[0] in HASHMODS:
            # only within its module
            hit = scope[:1] == p[:1] and re.search(r'(?<![.\w])%s\(' % n, text)
        elif p[0] in ('KeyGen', 'Signer', 'Verifier', 'SerDes'):
            # a method of a trait: called as `Self::`, `self.` or `KG::`
            if k in API:
                hit = (re.search(r'KG::%s\b' % n, text) and p[0] == 'KeyGen') or \
                    (' for ' in k and k.split()[0] == p[0] and k.split()[-1] == n)
            else:
                hit = k.split()[0] == p[0] and re.search(r'(Self::|self\.)%s\(' % n, text)
        else:
            # a method of a type
            hit = re.search(r'(\.|::)%s\(' % n, text)
        if k in SHARED and len(k.split()) == 2 and j == k.split()[0]:
            # the type of a method
            hit = True
        if hit and j != k:
            r.append(j)
    return r


def uses_api(k):
    text = words(k)
    r = []
    for j in ('PrivateKey', 'PublicKey', 'KG'):
        own = (' for ' + j) in k
        if j != k and (own or re.search(r'(?<![\w:])%s\b' % j, text)):
            r.append(lean(j))
    if re.search(r'\bHASHERS\b', text):
        r.append('HASHERS')
    return r


def osrng(k):
    return re.search(r'\bOsRng\b', words(k)) is not None


def fill(xs, indent):
    out, line = [], ' ' * indent
    for x in xs:
        if len(line) + len(x) + 1 > 118:
            out.append(line.rstrip())
            line = ' ' * indent
        line += x + ' '
    out.append(line.rstrip())
    return '\n'.join(out)


def lst(xs):
    return '[' + ', '.join(xs) + ']'


def table():
    o = []
    o.append('/-- The items outside the macro of `src/lib.rs`. -/')
    o.append('inductive Shared where')
    o.append(fill(['| ' + lean(k) for k in SHARED], 2))
    o.append('  deriving DecidableEq')
    o.append('')
    o.append('/-- The items that the macro `functionality` (`src/lib.rs:76-445`) puts into each module, and `HASHERS`. -/')
    o.append('inductive Api where')
    o.append(fill(['| ' + lean(k) for k in API] + ['| HASHERS'], 2))
    o.append('  deriving DecidableEq')
    o.append('')
    o.append('/-- The features of the attribute `cfg(any(..))` before the item or its module; none if there is no attribute. -/')
    o.append('def Shared.cfg : Shared → List Feature')
    seen = {}
    for k in SHARED:
        if items[k][0]:
            seen.setdefault(tuple(items[k][0]), []).append(k)
    for c, ks in seen.items():
        o.append(fill(['--'] + ['`src/%s:%d`' % (items[k][2], items[k][3]) for k in ks], 2).replace('\n  `', '\n  -- `'))
        o.append(fill(['| .' + lean(k) for k in ks], 2) + ' =>')
        o.append(fill([(feat(f) + ',') for f in c], 4).rstrip(',').replace('    ', '    [', 1) + ']')
    o.append('  | _ => []')
    o.append('')
    o.append('/-- The same for the items of the macro. -/')
    o.append('def Api.cfg : Api → List Feature')
    for k in API:
        if items[k][0]:
            o.append('  -- `src/%s:%d`' % (items[k][2], items[k][3]))
            o.append('  | .' + lean(k) + ' => ' + lst([feat(f) for f in items[k][0]]))
    o.append('  | _ => []')
    o.append('')
    o.append('/-- The shared items that an item names. -/')
    o.append('def Shared.uses : Shared → List Shared')
    for k in SHARED:
        u = uses_shared(k)
        if u:
            o.append('  -- `src/%s:%d`' % (items[k][2], items[k][3]))
            o.append('  | .' + lean(k) + ' =>')
            o.append(fill([('.' + lean(x) + ',') for x in u], 4).rstrip(',').replace('    ', '    [', 1) + ']')
    o.append('  | _ => []')
    o.append('')
    o.append('/-- The items that name `rand_core::OsRng`. -/')
    o.append('def Shared.osRng : Shared → Bool')
    for k in SHARED:
        if osrng(k):
            o.append('  -- `src/%s:%d`' % (items[k][2], items[k][3]))
            o.append('  | .' + lean(k) + ' => true')
    o.append('  | _ => false')
    o.append('')
    o.append('/-- The shared items that an item of the macro names. -/')
    o.append('def Api.uses : Api → List Shared')
    for k in API:
        u = uses_shared(k)
        if u:
            o.append('  -- `src/%s:%d`' % (items[k][2], items[k][3]))
            o.append('  | .' + lean(k) + ' =>')
            o.append(fill([('.' + lean(x) + ',') for x in u], 4).rstrip(',').replace('    ', '    [', 1) + ']')
    o.append('  -- `src/lib.rs:472-473`')
    o.append('  | .HASHERS => [.Hashers]')
    o.append('  | .KG => []')
    o.append('')
    o.append('/-- The items of the same module that an item of the macro names. -/')
    o.append('def Api.inner : Api → List Api')
    for k in API:
        u = uses_api(k)
        if u:
            o.append('  | .' + lean(k) + ' => ' + lst(['.' + x for x in u]))
    o.append('  | _ => []')
    o.append('')
    o.append('/-- The functions that `HASHERS` of a module names: the `use` line of the module. -/')
    o.append('def hashers : ParamSet → List Shared')
    for k in MODULES:
        text = read('lib.rs')
        f, = items[k][0]
        i = text.index('pub mod %s ' % f)
        m = re.search(r'use crate::hashers::(\w+)::\{([^}]*)\}', text[i:])
        o.append('  -- `src/lib.rs:%d`' % line_of(text, i + m.start()))
        o.append('  | .' + f + ' =>')
        o.append('    ' + lst(['.%s_%s' % (m.group(1), x.strip()) for x in m.group(2).split(',')]))
    return '\n'.join(o)


if __name__ == '__main__':
    if sys.argv[1:] == ['--check']:
        s = open(LEAN).read()
        ok = table() in s
        print('the table in the Lean file is that of the source' if ok else 'the tables differ')
        sys.exit(not ok)
    print(table())
