#!/usr/bin/env python3
"""A parser for the part of Rust that the tests in /repo/tests use.

It yields the trees of `Verif/Syntax.lean` as `syn` would (`Stmt::Macro`, attributes of expression statements,
macro tokens parsed as an expression, ..).
"""
import re

TOKEN = re.compile(r"""
  (?P<ws>\s+|//[^\n]*|/\*.*?\*/)
 |(?P<life>'[A-Za-z_][A-Za-z0-9_]*(?!'))
 |(?P<str>b?"(?:\\.|[^"\\])*"|'(?:\\.|[^'\\])')
 |(?P<num>[0-9][0-9_]*(?:\.[0-9][0-9_]*)?(?:[a-z][a-z0-9]*)?)
 |(?P<id>[A-Za-z_][A-Za-z0-9_]*)
 |(?P<op>\.\.=|\.\.\.|<<=|>>=|::|->|=>|==|!=|<=|>=|&&|\|\||\+=|-=|\*=|/=|%=|\^=|&=|\|=|\.\.|[-+*/%^!&|=<>@.,;:\#$?~(){}\[\]])
""", re.X | re.S)

def tokenize(s):
    out, i, line = [], 0, 1
    while i < len(s):
        m = TOKEN.match(s, i)
        assert m, s[i:i + 40]
        if m.lastgroup != "ws":
            out.append((m.lastgroup, m.group(), line))
        line += m.group().count("\n")
        i = m.end()
    return out

class Node:
    def __init__(self, kind, attrs, kids, line=0):
        self.kind, self.attrs, self.kids, self.line = kind, attrs, kids, line

class Fail(Exception):
    pass

ITEM_KW = {"fn", "struct", "enum", "impl", "mod", "use", "const", "static", "trait", "type", "pub", "extern"}
BLOCKY = {"if", "match", "loop", "while", "for", "unsafe", "{"}
BIN = [["||"], ["&&"], ["==", "!=", "<", ">", "<=", ">="], ["|"], ["^"], ["&"], ["<<", ">>"], ["+", "-"], ["*", "/", "%"]]
ASSIGN = ["+=", "-=", "*=", "/=", "%=", "^=", "&=", "|=", "<<=", ">>="]
CLOSE = {"(": ")", "[": "]", "{": "}"}

class P:
    def __init__(self, toks):
        self.t, self.i = toks, 0

    def peek(self, k=0):
        return self.t[self.i + k][1] if self.i + k < len(self.t) else None

    def kind(self, k=0):
        return self.t[self.i + k][0] if self.i + k < len(self.t) else None

    def line(self):
        return self.t[self.i][2] if self.i < len(self.t) else 0

    def next(self):
        if self.i >= len(self.t):
            raise Fail("end")
        self.i += 1
        return self.t[self.i - 1][1]

    def eat(self, s):
        if self.peek() == s and self.kind() != "str":
            self.i += 1
            return True
        return False

    def expect(self, s):
        if not self.eat(s):
            raise Fail("expected %r, found %r at line %d" % (s, self.peek(), self.line()))

    def group(self):
        """the tokens of a delimited group, without the delimiters"""
        o = self.next()
        c, d, a = CLOSE[o], 1, self.i
        while d:
            x = self.next()
            if self.t[self.i - 1][0] == "op":
                d += x in CLOSE
                d -= x in CLOSE.values()
        return self.t[a:self.i - 1]

    # attributes -------------------------------------------------------------
    def attrs(self):
        out = []
        while self.peek() == "#":
            self.next()
            inner = self.eat("!")
            g = P(self.group())
            p = g.path(False)
            if g.peek() is None:
                form = ("path",)
            elif g.peek() in CLOSE:
                form = ("list", g.group())
            else:
                form = ("nv",)
            if not inner:
                out.append((p, form))
        return out

    # paths and types ---------------------------------------------------------
    def angle(self):
        """the text between < and >"""
        self.expect("<")
        d, out = 1, []
        while True:
            x = self.next()
            if x == "<": d += 1
            if x == ">":
                d -= 1
                if d == 0: return out
            out.append(self.t[self.i - 1])

    def path(self, turbofish):
        lead = self.eat("::")
        segs, args = [], []
        while True:
            if self.kind() != "id":
                raise Fail("path")
            n, a, last = self.next(), None, None
            if turbofish and self.peek() == "::" and self.peek(1) == "<":
                self.next()
                a = self.angle()
            elif turbofish is None and self.peek() == "<":
                a = self.angle()
            segs.append((n, None if a is None else " ".join(x[1] for x in a)))
            last = a
            if self.peek() == "::" and self.kind(1) == "id":
                self.next()
                continue
            return (lead, segs, last)

    def type(self):
        if self.eat("impl"):
            bs, kids = [], []
            while True:
                if self.kind() == "life":
                    self.next()
                    bs.append(None)
                else:
                    p = self.path(None)
                    if self.peek() == "(":
                        g = P(self.group())
                        txt = "(" + " ".join(x[1] for x in g.t) + ")"
                        while g.peek():
                            kids.append(g.type()); g.eat(",")
                        if self.eat("->"):
                            kids.append(self.type())
                        p = (p[0], p[1][:-1] + [(p[1][-1][0], txt)], None)
                    bs.append(p)
                    kids += inside(p[2])
                if not self.eat("+"):
                    return ("impl", bs, kids)
        if self.peek() == "(":
            g = P(self.group())
            txt, kids = "(" + " ".join(x[1] for x in g.t) + ")", []
            while g.peek():
                kids.append(g.type()); g.eat(",")
            return ("other", txt, kids)
        if self.eat("&"):
            if self.kind() == "life": self.next()
            self.eat("mut")
            t = self.type()
            return ("other", "&", [t])
        if self.peek() == "[":
            g = P(self.group())
            return ("other", "[" + " ".join(x[1] for x in g.t) + "]", [g.type()])
        if self.eat("_"):
            return ("other", "_", [])
        p = self.path(None)
        kids = []
        if p[2] is not None:
            kids = generic_args(p[2])
        return ("path", p, kids, p[2] is not None)

    # patterns: raw text up to one of the stop tokens at depth 0 ------------------
    def pat(self, stops):
        d, out = 0, []
        while True:
            x = self.peek()
            if x is None: raise Fail("pattern")
            if d == 0 and x in stops and self.kind() != "str":
                return " ".join(out)
            if self.kind() == "op":
                d += x in CLOSE
                d -= x in CLOSE.values()
                if d < 0: raise Fail("pattern")
            out.append(self.next())

    # expressions ---------------------------------------------------------------
    def expr(self, struct=True, early=False):
        return self.assign(struct, early)

    def assign(self, struct, early=False):
        l = self.line()
        lhs = self.range(struct, early)
        if early and blocky(lhs) and self.stop_early: return lhs
        if self.peek() == "=":
            self.next()
            return Node(("eAssign",), [], [lhs, self.assign(struct)], l)
        if self.peek() in ASSIGN:
            op = self.next()
            return Node(("eBinary", op), [], [lhs, self.assign(struct)], l)
        return lhs

    def starts_expr(self, struct):
        x = self.peek()
        if x is None or x in ")]},;=>" or x == "=>" : return False
        if x == "{" and not struct: return False
        return not (x in (".", "?", "=", "as") )

    def range(self, struct, early=False):
        l = self.line()
        if self.peek() in ("..", "..="):
            self.next()
            ks = [self.binary(0, struct)] if self.starts_expr(struct) else []
            return Node(("eRange",), [], ks, l)
        lhs = self.binary(0, struct, early)
        if early and blocky(lhs) and self.stop_early: return lhs
        if self.peek() in ("..", "..="):
            self.next()
            ks = [lhs] + ([self.binary(0, struct)] if self.starts_expr(struct) else [])
            return Node(("eRange",), [], ks, l)
        return lhs

    def binary(self, lvl, struct, early=False):
        if lvl == len(BIN):
            return self.cast(struct, early)
        l = self.line()
        lhs = self.binary(lvl + 1, struct, early)
        if early and blocky(lhs) and self.stop_early: return lhs
        while self.peek() in BIN[lvl] and self.kind() == "op":
            op = self.next()
            lhs = Node(("eBinary", op), [], [lhs, self.binary(lvl + 1, struct)], l)
        return lhs

    def cast(self, struct, early=False):
        l = self.line()
        e = self.unary(struct, early)
        if early and blocky(e) and self.stop_early: return e
        while self.eat("as"):
            a = self.i
            self.type()
            e = Node(("eCast", " ".join(x[1] for x in self.t[a:self.i])), [], [e], l)
        return e

    def unary(self, struct, early=False):
        l = self.line()
        x = self.peek()
        if x == "#":
            as_ = self.attrs()
            e = self.unary(struct, early)
            e.attrs = as_ + e.attrs
            return e
        if x in ("-", "!", "*") and self.kind() == "op":
            self.next()
            return Node(("eUnary", x), [], [self.unary(struct)], l)
        if x in ("&", "&&"):
            self.next(); self.eat("mut")
            return Node(("eReference",), [], [self.unary(struct)], l)
        return self.postfix(struct, early)

    def postfix(self, struct, early):
        l = self.line()
        self.stop_early = False
        e = self.primary(struct)
        if early and blocky(e) and not (self.peek() == "?" or self.peek() == "."):
            self.stop_early = True
            return e
        self.stop_early = False
        while True:
            x = self.peek()
            if x == "?":
                self.next()
                e = Node(("eTry",), [], [e], l)
            elif x == ".":
                self.next()
                if self.eat("await"):
                    e = Node(("eAwait",), [], [e], l)
                    continue
                n = self.next()
                if self.peek() == "::" and self.peek(1) == "<":
                    self.next(); self.angle()
                if self.peek() == "(":
                    e = Node(("eMethodCall", n), [], [e] + args(self.group()), l)
                else:
                    e = Node(("eField", n), [], [e], l)
            elif x == "(":
                e = Node(("eCall",), [], [e] + args(self.group()), l)
            elif x == "[":
                e = Node(("eIndex",), [], [e] + args(self.group()), l)
            else:
                return e

    def block(self):
        l = self.line()
        return Node(("block",), [], stmts(self.group()), l)

    def primary(self, struct):
        l, x, k = self.line(), self.peek(), self.kind()
        label = None
        if k == "life" and self.peek(1) == ":":
            label = self.next()[1:]
            self.next()
            x, k = self.peek(), self.kind()
        if k in ("num", "str") or x in ("true", "false"):
            return Node(("eLit", self.next()), [], [], l)
        if x == "(":
            g = self.group()
            es = args(g)
            if len(es) == 1 and not (g and g[-1][1] == ","):
                return Node(("eParen",), [], es, l)
            return Node(("eTuple",), [], es, l)
        if x == "[":
            return Node(("eArray",), [], args(self.group()), l)
        if x == "{":
            return Node(("eBlock", label), [], self.block().kids, l)
        if x == "unsafe":
            self.next()
            return Node(("eUnsafe",), [], self.block().kids, l)
        if x == "async":
            self.next(); self.eat("move")
            return Node(("eAsync",), [], self.block().kids, l)
        if x == "if":
            self.next()
            c = self.cond()
            ks = [c, self.block()]
            if self.eat("else"):
                ks.append(self.primary(True))
            return Node(("eIf",), [], ks, l)
        if x == "match":
            self.next()
            s = self.expr(False)
            g = P(self.group())
            arms = []
            while g.peek():
                al = g.line()
                as_ = g.attrs()
                p = g.pat(("=>", "if"))
                ks = []
                if g.eat("if"):
                    ks.append(g.expr())
                g.expect("=>")
                ks.append(g.expr(True, True))
                g.eat(",")
                arms.append(Node(("arm", p), as_, ks, al))
            return Node(("eMatch",), [], [s] + arms, l)
        if x == "loop":
            self.next()
            return Node(("eLoop", label), [], [self.block()], l)
        if x == "while":
            self.next()
            c = self.cond()
            return Node(("eWhile", label), [], [c, self.block()], l)
        if x == "for":
            self.next()
            p = self.pat(("in",))
            self.next()
            e = self.expr(False)
            return Node(("eForLoop", label, p), [], [e, self.block()], l)
        if x == "return":
            self.next()
            return Node(("eReturn",), [], [self.expr(struct)] if self.starts_expr(struct) else [], l)
        if x == "break":
            self.next()
            lb = self.next()[1:] if self.kind() == "life" else None
            return Node(("eBreak", lb), [], [self.expr(struct)] if self.starts_expr(struct) else [], l)
        if x == "continue":
            self.next()
            lb = self.next()[1:] if self.kind() == "life" else None
            return Node(("eContinue", lb), [], [], l)
        if x in ("|", "||", "move"):
            self.eat("move")
            txt = ""
            if not self.eat("||"):
                self.expect("|")
                txt = self.pat(("|",))
                self.next()
            return Node(("eClosure", txt), [], [self.expr()], l)
        if x == "_":
            self.next()
            return Node(("eInfer",), [], [], l)
        if k == "id" or x == "::":
            p = self.path(True)
            if self.peek() == "!" and self.peek(1) in CLOSE:
                self.next()
                brace = self.peek() == "{"
                g = self.group()
                n = Node(("eMacro", p, " ".join(t[1] for t in g)), [], parse_whole(g), l)
                n.brace = brace
                return n
            if struct and self.peek() == "{" and p[1][-1][0][0].isupper():
                g = self.group()
                raise Fail("struct literal")
            return Node(("ePath", p), [], [], l)
        raise Fail("expression: %r at line %d" % (x, l))

    def cond(self):
        if self.eat("let"):
            l = self.line()
            p = self.pat(("=",))
            self.next()
            return Node(("eLet", p), [], [self.expr(False)], l)
        return self.expr(False)

    # statements and items ----------------------------------------------------------
    def stmt(self):
        l = self.line()
        as_ = self.attrs()
        x = self.peek()
        if x == "let":
            self.next()
            p = self.pat((":", "=", ";"))
            pat = ("plain", p)
            if self.eat(":"):
                pat = ("typed", p, self.type())
            ks = []
            if self.eat("="):
                ks.append(self.expr())
                if self.eat("else"):
                    ks.append(self.primary(True))
            self.expect(";")
            return Node(("sLocal", pat), as_, ks, l)
        if x in ITEM_KW and not (x == "const" and self.peek(1) == "{"):
            return Node(("sItem", self.item(as_)), [], [], l)
        e = self.expr(True, True)
        target = e
        while target.kind[0] in ("eAssign", "eBinary", "eCast"):
            target = target.kids[0]
        target.attrs = as_ + target.attrs
        semi = self.eat(";")
        if e.kind[0] == "eMacro" and (semi or e.brace):
            return Node(("sMacro", e.kind[1], e.kind[2]), e.attrs, [], l)
        if not semi and not blocky(e) and self.peek() is not None:
            raise Fail("expected ; at line %d, found %r" % (self.line(), self.peek()))
        return Node(("sExpr", semi), [], [e], l)

    def item(self, as_):
        l, a = self.line(), self.i
        self.eat("pub")
        if self.peek() == "fn":
            self.next()
            name = self.next()
            if self.peek() == "<": self.angle()
            self.group()
            ret = self.type() if self.eat("->") else None
            if self.eat("where"):
                while self.peek() != "{": self.next()
            body = self.block()
            return ("fn", name, ret, as_, body, l)
        if self.peek() == "mod":
            self.next(); name = self.next()
            if self.eat(";"): return ("other", "mod " + name)
            return ("mod", name, file(self.group()))
        if self.peek() in ("use", "const", "static", "type", "extern"):
            while self.peek() != ";":
                if self.peek() in CLOSE and self.kind() == "op": self.group()
                else: self.next()
            self.next()
        else:
            while self.peek() not in ("{", ";"):
                if self.peek() in CLOSE and self.kind() == "op": self.group()
                else: self.next()
            if not self.eat(";"): self.group()
        return ("other", " ".join(t[1] for t in self.t[a:self.i]))

def blocky(e):
    return e.kind[0] in ("eIf", "eMatch", "eLoop", "eWhile", "eForLoop", "eUnsafe", "eBlock", "eTryBlock", "eConst")

def inside(toks):
    """types in generic arguments"""
    out = []
    if toks:
        for a in split(toks):
            if len(a) > 2 and a[1][1] == "=": a = a[2:]
            if a[0][0] == "life": continue
            out.append(P(a).type())
    return out

def generic_args(toks):
    out = []
    for a in split(toks):
        if a[0][0] in ("life", "num") or (len(a) > 2 and a[1][1] == "="):
            out.append(("argOther",))
        else:
            out.append(("argType", P(a).type()))
    return out

def split(toks):
    out, cur, d = [], [], 0
    for t in toks:
        if t[0] == "op":
            d += t[1] in "([{<"
            d -= t[1] in ")]}>"
            if t[1] == "," and d == 0:
                out.append(cur); cur = []
                continue
        cur.append(t)
    if cur: out.append(cur)
    return out

def args(toks):
    p, out = P(toks), []
    while p.peek() is not None:
        out.append(p.expr())
        if p.peek() is not None: p.expect(",")
    return out

def parse_whole(toks):
    try:
        p = P(toks)
        e = p.expr()
        return [e] if p.peek() is None else []
    except Fail:
        return []

def stmts(toks):
    p, out = P(toks), []
    while p.peek() is not None:
        if p.eat(";"): continue
        out.append(p.stmt())
    return out

def file(toks):
    p, out = P(toks), []
    while p.peek() is not None:
        out.append(p.item(p.attrs()))
    return out

# printing as Lean ---------------------------------------------------------------------
def s(x): return '"' + x.replace("\\", "\\\\").replace('"', '\\"').replace("\n", " ") + '"'
def opt(x): return "none" if x is None else "(some %s)" % s(x)
def lst(xs): return "[" + ", ".join(xs) + "]"
def lpath(p):
    if not p[0] and all(a is None for _, a in p[1]):
        return "(.ofIdents %s)" % lst(s(n) for n, _ in p[1])
    return "⟨%s, %s⟩" % ("true" if p[0] else "false", lst("⟨%s, %s⟩" % (s(n), opt(a)) for n, a in p[1]))
def toks(g):
    out, i = [], 0
    while i < len(g):
        k, t, _ = g[i]
        if k == "id": out.append(".ident " + s(t))
        elif t == "::": out.append(".colon2")
        elif t == ",": out.append(".comma")
        elif t == "=": out.append(".eq")
        else: out.append(".other " + s(t))
        i += 1
    return lst(out)
def lattr(a):
    p, f = a
    form = {"path": ".path", "nv": ".nameValue"}.get(f[0]) or ".list " + toks(f[1])
    return "⟨%s, %s⟩" % (lpath(p), form)
def lty(t):
    if t[0] == "impl":
        return ".mk (.implTrait %s) %s" % (lst("none" if b is None else "some " + lpath(b) for b in t[1]), lst(lty(k) for k in t[2]))
    if t[0] == "path":
        return ".mk (.path false %s %s) %s" % (lpath(t[1]), "(some false)" if t[3] else "none", lst(lty(k) for k in t[2]))
    if t[0] == "argType": return ".mk .argType [%s]" % lty(t[1])
    if t[0] == "argOther": return ".mk .argOther []"
    return ".mk (.other %s) %s" % (s(t[1]), lst(lty(k) for k in t[2]))
def lkind(k):
    n = k[0]
    if n == "eMacro" or n == "sMacro": return "(.%s %s %s)" % (n, lpath(k[1]), s(k[2]))
    if n == "ePath": return "(.ePath false %s)" % lpath(k[1])
    if n == "sExpr": return "(.sExpr %s)" % ("true" if k[1] else "false")
    if n == "sLocal":
        p = k[1]
        return "(.sLocal (.plain %s))" % s(p[1]) if p[0] == "plain" else "(.sLocal (.typed %s (%s)))" % (s(p[1]), lty(p[2]))
    if n == "sItem":
        i = k[1]
        return "(.sItem (.user %s))" % s(i[0] + " " + i[1])
    if n in ("eBlock", "eBreak", "eContinue", "eLoop", "eWhile"): return "(.%s %s)" % (n, opt(k[1]))
    if n == "eForLoop": return "(.eForLoop %s %s)" % (opt(k[1]), s(k[2]))
    if len(k) == 1: return "." + n
    return "(.%s %s)" % (n, s(k[1]))
def lnode(n):
    return ".mk %s %s %s" % (lkind(n.kind), lst(lattr(a) for a in n.attrs), lst(lnode(c) for c in n.kids))
def fn_node(i):
    _, name, ret, as_, body, l = i
    return ".mk (.iFn %s %s) [] [%s]" % (s(name), "none" if ret is None else "(some (%s))" % lty(ret), lnode(body))

def is_auto(a): return a[0] == (False, [("auto_enum", None)], None)

def roots(items):
    """(kind, name, arguments, Lean term, line) of every outermost auto_enum attribute"""
    out = []
    def item(i):
        if i[0] == "mod":
            for j in i[2]: item(j)
        if i[0] == "fn":
            au = [a for a in i[3] if is_auto(a)]
            if au: out.append(("stmt", i[1], au[0][1], fn_node(i), i[5]))
            else: node(i[4])
            inner(i[4])
    def inner(n):
        if n.kind[0] == "sItem": item(n.kind[1])
        for c in n.kids: inner(c)
    def node(n):
        if n.kind[0] == "sItem": return
        if n.kind[0] == "sExpr":
            e = n.kids[0]
            au = [a for a in e.attrs if is_auto(a)]
            if au:
                e.attrs = [a for a in e.attrs if a is not au[0]]
                out.append(("stmt" if n.kind[1] else "expr", "expr", au[0][1], lnode(n if n.kind[1] else e), n.line)); return
        else:
            au = [a for a in n.attrs if is_auto(a)]
            if au:
                n.attrs = [a for a in n.attrs if a is not au[0]]
                out.append(("stmt" if n.kind[0] == "sLocal" else "expr", "let" if n.kind[0] == "sLocal" else "expr", au[0][1], lnode(n), n.line)); return
        for c in n.kids: node(c)
    for i in items: item(i)
    return out

if __name__ == "__main__":
    import sys
    for r in roots(file(tokenize(open(sys.argv[1]).read()))):
        print(r[0], r[1], r[4], toks(r[2][1]) if r[2][0] == "list" else r[2][0], len(r[3]))
