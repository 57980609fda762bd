import re,sys,json
def unindent(s):
    lines=s.split('\n')
    # computeIndent
    mi=None
    body=lines[1:] if lines[0]=='' else lines
    for l in body:
        if l.strip()=='' : continue
        n=len(l)-len(l.lstrip(' \t'))
        mi=n if mi is None else min(mi,n)
    if not mi: return s
    r=[]
    for l in body:
        r.append(l[mi:] if len(l)>mi else '')
    return '\n'.join(r)
def unq(s):
    out=b'';i=0
    while i<len(s):
        c=s[i]
        if c=='\\':
            i+=1;c=s[i]
            if c in 'ntr"\\\'': out+={'n':b'\n','t':b'\t','r':b'\r'}.get(c,c.encode());
            elif c=='x': out+=bytes([int(s[i+1:i+3],16)]); i+=2
            elif c=='u': out+=chr(int(s[i+1:i+5],16)).encode(); i+=4
            else: raise Exception(c)
        else: out+=c.encode()
        i+=1
    return out
class P:
    def __init__(s,t): s.t=t; s.i=0
    def ws(s):
        while s.i<len(s.t):
            if s.t[s.i] in ' \t\n\r': s.i+=1
            elif s.t.startswith('//',s.i): s.i=s.t.index('\n',s.i)
            else: break
    def expr(s):
        v=s.prim(); s.ws()
        while s.t[s.i]=='+':
            s.i+=1; v+=s.prim(); s.ws()
        return v
    def prim(s):
        s.ws(); c=s.t[s.i]
        if c=='`':
            j=s.t.index('`',s.i+1); v=s.t[s.i+1:j].replace('\r','').encode(); s.i=j+1; return v
        if c=='"':
            j=s.i+1
            while s.t[j]!='"': j+= 2 if s.t[j]=='\\' else 1
            v=unq(s.t[s.i+1:j]); s.i=j+1; return v
        m=re.compile(r'[A-Za-z_.0-9]+').match(s.t,s.i)
        if not m: raise Exception(s.t[s.i:s.i+50])
        n=m.group(0); s.i=m.end(); s.ws()
        if s.t[s.i]=='(':
            s.i+=1; a=s.args()
            if n=='issue.Unindent': return unindent(a[0].decode('utf8')).encode()
            raise Exception(n)
        return ('id',n)
    def args(s):
        r=[]
        s.ws()
        while s.t[s.i]!=')':
            r.append(s.expr()); s.ws()
            if s.t[s.i]==',': s.i+=1; s.ws()
        s.i+=1
        return r
def run(fn,suffix,extra=''):
    t=open(fn,encoding='utf8').read()
    end=t.index('\nfunc expect')if '\nfunc expect' in t else len(t)
    for m in re.finditer(r'\b(expect[A-Za-z]*)\(t,',t[:end]):
        p=P(t); p.i=m.end()
        try: a=p.args()
        except Exception as e: sys.stderr.write(f'skip {fn} {t.count(chr(10),0,m.start())+1}: {e}\n'); continue
        ln=t.count('\n',0,m.start())+1
        out=[m.group(1),fn.split('/')[-1]+':'+str(ln)]
        out.append(extra)
        for x in a:
            out.append('='+x[1] if isinstance(x,tuple) else x.hex())
        CASES.append(out)
CASES=[]
run('/repo/parser/parser_test.go','')
run('/repo/validator/checker_test.go','','v')
run('/repo/validator/tasks_checker_test.go','','t')
run('/repo/validator/workflow_checker_test.go','','w')

import os
root=os.path.dirname(os.path.dirname(os.path.abspath(__file__)))
messages={}
for m in re.finditer(r'issue\.Hard2?\((\w+), `(.*?)`',open('/repo/parser/issues.go').read()):
    messages[m.group(1)]=re.compile(re.sub(r'%\\?\{\w+\\?\}','.*',re.escape(m.group(2)).replace(r'\%\{','%{').replace('%%','%')))
def code(msg):
    return [c for c,r in messages.items() if r.fullmatch(msg)]
def lit(b):
    try: s=b.decode('utf8')
    except UnicodeDecodeError: return '['+', '.join(map(str,b))+']'
    if any(ord(c)<32 and c not in '\n\t\r' for c in s) or '\ufffd' in s: return '['+', '.join(map(str,b))+']'
    return 'b!"'+s.replace('\\','\\\\').replace('"','\\"').replace('\n','\\n').replace('\t','\\t').replace('\r','\\r')+'"'
OPT={'TasksEnabled':'tasks','WorkflowEnabled':'workflow','HandleHexEscapes':'hexEsc','HandleBacktickStrings':'backtick','EppMode':'epp'}
skipped=[]
def example(c):
    kind,loc,extra,src,*rest=c
    flags={OPT[x[1:]] for x in rest if x.startswith('=') and x[1:] in OPT}
    vals=[bytes.fromhex(x) for x in rest if not x.startswith('=')]
    if kind.endswith('EPP'): flags.add('epp'); kind=kind[:-3]
    if extra=='t': flags.add('tasks')
    if extra=='w': flags.add('workflow')
    env='(opts '+lit(bytes.fromhex(src))+''.join(f' ({f} := true)' for f in sorted(flags))+')'
    if extra:
        k={'v':'.puppet','t':'.tasks','w':'.workflow'}[extra]
        codes=[x[len('=Validate'):] for x in rest if x.startswith('=Validate')]
        goal=f"reports {env} {k} [{', '.join('.'+x[0].lower()+x[1:] for x in codes)}] = true"
    else:
        exp=vals[0]
        if kind=='expectDump': goal=f'dump {env} = .pn {lit(exp)}'
        elif kind=='expectBlock': goal=f'block {env} = .pn {lit(exp)}'
        elif kind=='expectHeredoc': goal=f'heredoc {env} = .heredoc {lit(exp)}'
        elif kind=='expectError':
            t=exp.decode('utf8')
            m=re.fullmatch(r'invalid unicode character at offset (\d+)',t)
            if m: goal=f'block {env} = .invalidUnicode {m.group(1)}'
            else:
                m=re.fullmatch(r'(.*) \(line: (\d+), column: (\d+)\)',t,re.S)
                cs=code(m.group(1))
                if len(cs)>1: cs=[x for x in cs if '.*' not in messages[x].pattern]
                assert len(cs)==1,(t,cs)
                goal=f'block {env} = .error .{cs[0]} {m.group(2)} {m.group(3)}'
        else: raise Exception(kind)
    if not extra and re.search(r'\de[+-]\d\d',goal) :
        skipped.append(loc); return None   # strconv.FormatFloat is not modelled
    return f'/-- {loc} -/\nexample : {goal} := by decide +kernel\n'
groups={'Parser':[],'Validator':[]}
for c in CASES:
    e=example(c)
    if e: groups['Validator' if c[2] else 'Parser'].append(e)
mods=[]
for g,n in (('Parser',6),('Validator',3)):
    l=groups[g]; k=(len(l)+n-1)//n
    for i in range(n):
        name=f'{g}{i+1}'; mods.append(name)
        with open(f'{root}/lean/Verif/Conformance/{name}.lean','w') as o:
            o.write('import Verif.Conformance.Base\n\n/-! Generated by tools/conformance.py from the tests in /repo. -/\nnamespace PP.Conformance\n\n'+'\n'.join(l[i*k:(i+1)*k])+'\nend PP.Conformance\n')
print({g:len(l) for g,l in groups.items()},'skipped',skipped)
