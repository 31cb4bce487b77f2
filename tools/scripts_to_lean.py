"""Writes lean/Verif/Model/Scripts.lean from /repo/config/sql."""
import re,glob,os
def split(txt):
    out=[];cur='';q=None
    for ch in txt:
        if q:
            cur+=ch
            if ch==q: q=None
        elif ch in "'\"": q=ch;cur+=ch
        elif ch==';': out.append(cur.strip());cur=''
        else: cur+=ch
    assert not cur.strip()
    return [x for x in out if x]
def splitcomma(s):
    out=[];cur='';d=0;q=None
    for ch in s:
        if q:
            cur+=ch
            if ch==q:q=None
            continue
        if ch in "'\"": q=ch
        if ch=='(':d+=1
        if ch==')':d-=1
        if ch==',' and d==0: out.append(cur.strip());cur=''
        else: cur+=ch
    out.append(cur.strip());return out
def val(s):
    s=s.strip()
    if s[0] in "'\"": return '.text "%s"'%s[1:-1]
    return '.int %s'%(s if s[0]!='-' else '(%s)'%s)
def strs(l): return '['+', '.join('"%s"'%x for x in l)+']'
def col(s):
    m=re.match(r'(\w+)\s*(.*)',s,re.S); n,rest=m.groups(); f=[]
    rest=' '.join(rest.split())
    if 'NOT NULL' in rest: f.append('notNull := true')
    m=re.search(r'DEFAULT (\S+)',rest)
    if m: f.append('dflt := '+val(m.group(1)))
    m=re.search(r'CHECK ?\( ?\w+ ?= ?(\d+) ?\)',rest)
    if m: f.append('oneOf := some [%s]'%m.group(1))
    m=re.search(r'CHECK ?\( ?\w+ IN ?\( ?(\d+) ?, ?(\d+) ?\) ?\)',rest)
    if m: f.append('oneOf := some [%s, %s]'%m.groups())
    if 'INTEGER PRIMARY KEY' in rest: f.append('rowid := true')
    elif 'PRIMARY KEY' in rest or 'UNIQUE' in rest: f.append('unique := true')
    return '{ name := "%s"%s }'%(n,''.join(', '+x for x in f))
schema={}   # track cols for SELECT *, VALUES without list
def expr(s):
    s=s.strip()
    if re.match(r'^[-\d\'"]',s): return '.lit (%s)'%val(s)
    return '.col "%s"'%s.split('.')[-1]
def cmd(st):
    global schema
    st='\n'.join(l for l in st.split('\n') if not l.strip().startswith('--')).strip()
    st=' '.join(st.split())
    m=re.match(r'SAVEPOINT (\w+)$',st)
    if m: return '.savepoint "%s"'%m.group(1)
    m=re.match(r'RELEASE (\w+)$',st)
    if m: return '.release "%s"'%m.group(1)
    m=re.match(r'CREATE TABLE (\w+) ?\((.*)\)$',st)
    if m:
        n,b=m.groups(); cs=[];us=[]
        for c in splitcomma(b):
            u=re.match(r'UNIQUE ?\((.*)\)$',c)
            if u: us.append([x.strip() for x in u.group(1).split(',')])
            else: cs.append(c)
        schema[n]=[re.match(r'\w+',c).group(0) for c in cs]
        return '.stmt (.create "%s" [%s] [%s])'%(n,',\n      '.join(col(c) for c in cs),', '.join(strs(u) for u in us))
    m=re.match(r'DROP TABLE (\w+)$',st)
    if m: schema.pop(m.group(1)); return '.stmt (.drop "%s")'%m.group(1)
    m=re.match(r'ALTER TABLE (\w+) RENAME TO (\w+)$',st)
    if m:
        schema[m.group(2)]=schema.pop(m.group(1)); return '.stmt (.rename "%s" "%s")'%m.groups()
    m=re.match(r'ALTER TABLE (\w+) ADD (?:COLUMN )?(.*)$',st)
    if m:
        schema[m.group(1)].append(re.match(r'\w+',m.group(2)).group(0)); return '.stmt (.addColumn "%s" %s)'%(m.group(1),col(m.group(2)))
    m=re.match(r'DELETE FROM (\w+)$',st)
    if m: return '.stmt (.clear "%s")'%m.group(1)
    m=re.match(r'INSERT INTO (\w+) ?(?:\(([^)]*)\))? ?VALUES ?(.*)$',st)
    if m:
        n,cs,rows=m.groups()
        cs=[x.strip() for x in cs.split(',')] if cs else list(schema[n])
        rs=[]
        for r in splitcomma(rows):
            vs=splitcomma(r.strip()[1:-1])
            if 'rowid' in cs:
                assert cs[0]=='rowid'; vs=vs[1:]
            rs.append('['+', '.join(val(v) for v in vs)+']')
        if 'rowid' in cs: cs=cs[1:]
        return '.stmt (.insert "%s" %s [%s])'%(n,strs(cs),', '.join(rs))
    m=re.match(r'INSERT INTO (\w+) ?(?:\(([^)]*)\))? ?SELECT (.*) FROM (\w+)(.*)$',st)
    if m:
        n,cs,es,src,rest=m.groups(); rest=rest.strip()
        cs=[x.strip() for x in cs.split(',')] if cs else list(schema[n])
        j=re.match(r'INNER JOIN (\w+) ON (\w+)\.(\w+) = 1$',rest)
        if j:
            assert j.group(2)==src
            ee=[]
            for e in splitcomma(es):
                left='true' if e.strip().startswith(src+'.') else 'false'
                ee.append('(%s, %s)'%(left,expr(e)))
            return '.stmt (.join "%s" %s "%s" "%s" "%s"\n      [%s])'%(n,strs(cs),src,j.group(3),j.group(1),', '.join(ee))
        if es.strip()=='*': es=', '.join(schema[src])
        order='.rowid'; limit='none'
        if rest=='LIMIT 1': limit='(some 1)'
        elif rest=='ORDER BY rowid' or rest=='ORDER BY ecu_serials.id' or rest=='': pass
        elif rest=='ORDER BY is_primary DESC, ecu_serials.rowid': order='(.flagFirst "is_primary")'
        else: raise Exception(rest)
        return '.stmt (.select "%s" %s "%s"\n      [%s] %s %s)'%(n,strs(cs),src,', '.join(expr(e) for e in splitcomma(es)),order,limit)
    raise Exception(st)
def script(p):
    t=open(p).read()
    t='\n'.join(l for l in t.split('\n') if not l.strip().startswith('--'))
    return [cmd(s) for s in split(t)]
o='''import Verif.Model.Sql

/-!
# The schema scripts

The statements of `config/sql/migration/migrate.NN.sql`, `config/sql/rollback/rollback.NN.sql` and
`config/sql/schema.sql`, transcribed one to one by a script (types of columns are dropped, as
`Model/Sql.lean` does not convert values; `VALUES` without a column list and `SELECT *` are
written with the columns; explicit `rowid`s in `schema.sql` are those the rows get anyway).
-/

namespace Aktualizr.Sql

/-- A command of a script: a statement, or one that marks a transaction. -/
inductive Cmd where
  | stmt (s : Stmt)
  | savepoint (name : String)
  | release (name : String)
  deriving DecidableEq, Repr

namespace Script

'''
R='/repo/config/sql/'
snap={}
for f in sorted(glob.glob(R+'migration/*.sql')):
    k=int(f.split('.')[-2])
    o+='/-- `config/sql/migration/%s`. -/\ndef migrate%d : List Cmd :=\n  [ %s ]\n\n'%(os.path.basename(f),k,',\n    '.join(script(f)))
    snap[k]={a:list(b) for a,b in schema.items()}
for f in sorted(glob.glob(R+'rollback/*.sql')):
    k=int(f.split('.')[-2]); schema={a:list(b) for a,b in snap[k].items()}
    o+='/-- `config/sql/rollback/%s`. -/\ndef rollback%d : List Cmd :=\n  [ %s ]\n\n'%(os.path.basename(f),k,',\n    '.join(script(f)))
schema={}
o+='/-- `config/sql/schema.sql`. -/\ndef schema : List Cmd :=\n  [ %s ]\n\n'%',\n    '.join(script(R+'schema.sql'))
o+='''/-- The migrations (`embed_schemas.py:39-43`): the script at place `k` leads from version `k - 1` to
`k`. -/
def migrations : List (List Cmd) := [%s]

/-- The rollback scripts with the version they lead away from. -/
def rollbacks : List (Nat × List Cmd) := [%s]

end Script

end Aktualizr.Sql
'''%(', '.join('migrate%d'%k for k in range(26)),', '.join('(%d, rollback%d)'%(k,k) for k in range(15,26)))
open('/verif/lean/Verif/Model/Scripts.lean','w').write(o)
